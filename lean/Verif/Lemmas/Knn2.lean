import Verif.Lemmas.Knn

/-! # Lemmas: neighbour counts of the KSG estimators -/

namespace Verif

open Spec

theorem rows_getD_length {rows : List (List ℝ)} {n d t : Nat} (hn : rows.length = n) (hp : Points rows d) (ht : t < n) :
    (rows.getD t []).length = d := by
  have ht' : t < rows.length := by omega
  have : rows.getD t [] = rows[t] := by simp [List.getD_eq_getElem?_getD, ht']
  rw [this]
  exact hp _ (List.getElem_mem ht')

theorem filter_length_mono {n : Nat} (P Q : Nat → Prop) [DecidablePred P] [DecidablePred Q] (h : ∀ s < n, P s → Q s) :
    ((List.range n).filter (fun s => decide (P s))).length ≤ ((List.range n).filter (fun s => decide (Q s))).length := by
  rw [← List.countP_eq_length_filter, ← List.countP_eq_length_filter]
  refine List.countP_mono_left fun s hs hp => ?_
  simp only [decide_eq_true_eq] at hp ⊢
  exact h s (List.mem_range.1 hs) hp

theorem below_eq (n t : Nat) (δ : Nat → ℝ) (ε : ℝ) : below n t δ ε =
    ((List.range n).filter (fun s => @decide (s ≠ t ∧ δ s < ε) (Classical.propDecidable _))).length := by
  unfold below; congr! 4

theorem within_eq (n t : Nat) (δ : Nat → ℝ) (ε : ℝ) : within n t δ ε =
    ((List.range n).filter (fun s => @decide (s ≠ t ∧ δ s ≤ ε) (Classical.propDecidable _))).length := by
  unfold within; congr! 4

theorem below_le_within (n t : Nat) (δ : Nat → ℝ) (ε : ℝ) : below n t δ ε ≤ within n t δ ε := by
  unfold below within
  exact filter_length_mono _ _ fun _ _ h => ⟨h.1, h.2.le⟩

theorem within_le_below {n t : Nat} {δ : Nat → ℝ} {ε ε' : ℝ} (h : ε < ε') : within n t δ ε ≤ below n t δ ε' := by
  unfold below within
  exact filter_length_mono _ _ fun _ _ hs => ⟨hs.1, lt_of_le_of_lt hs.2 h⟩

theorem below_mono {n t : Nat} {δ δ' : Nat → ℝ} (h : ∀ s < n, δ' s ≤ δ s) (ε : ℝ) : below n t δ ε ≤ below n t δ' ε := by
  unfold below
  exact filter_length_mono _ _ fun s hs hp => ⟨hp.1, lt_of_le_of_lt (h s hs) hp.2⟩

theorem within_mono {n t : Nat} {δ δ' : Nat → ℝ} (h : ∀ s < n, δ' s ≤ δ s) (ε : ℝ) : within n t δ ε ≤ within n t δ' ε := by
  unfold within
  exact filter_length_mono _ _ fun s hs hp => ⟨hp.1, le_trans (h s hs) hp.2⟩

theorem below_congr {n t : Nat} {δ δ' : Nat → ℝ} (h : ∀ s < n, δ s = δ' s) (ε : ℝ) : below n t δ ε = below n t δ' ε :=
  le_antisymm (below_mono (fun s hs => (h s hs).ge) ε) (below_mono (fun s hs => (h s hs).le) ε)

theorem within_congr {n t : Nat} {δ δ' : Nat → ℝ} (h : ∀ s < n, δ s = δ' s) (ε : ℝ) : within n t δ ε = within n t δ' ε :=
  le_antisymm (within_mono (fun s hs => (h s hs).ge) ε) (within_mono (fun s hs => (h s hs).le) ε)

theorem below_eq_zero {n t : Nat} {δ : Nat → ℝ} {ε : ℝ} (h : ∀ s < n, ε ≤ δ s) : below n t δ ε = 0 := by
  unfold below
  rw [List.length_eq_zero_iff, List.filter_eq_nil_iff]
  intro s hs
  simp only [decide_eq_true_eq, not_and, not_lt]
  exact fun _ => h s (List.mem_range.1 hs)

theorem within_lt {n t : Nat} (ht : t < n) (δ : Nat → ℝ) (ε : ℝ) : within n t δ ε < n := by
  have h1 := countP_range_split ht (fun _ => True)
  have h3 : (List.range n).countP (fun s => @decide True (Classical.propDecidable _)) = n := by simp
  rw [h3, if_pos trivial] at h1
  unfold within
  refine lt_of_le_of_lt (b := n - 1) ?_ (by omega)
  refine le_trans (filter_length_mono (n := n) _ (fun s => s ≠ t ∧ True) fun _ _ h => ⟨h.1, trivial⟩) ?_
  have h4 : ((List.range n).filter (fun s => decide (s ≠ t ∧ True))).length = n - 1 := by
    rw [show n - 1 = _ from Nat.sub_eq_of_eq_add h1]
    congr! 4
  exact h4.le

theorem isKthDist_congr {n k t : Nat} {δ δ' : Nat → ℝ} (h : ∀ s < n, δ s = δ' s) {ε : ℝ} (H : IsKthDist n k t δ ε) :
    IsKthDist n k t δ' ε := by
  obtain ⟨⟨s, hs, hst, e⟩, h1, h2⟩ := H
  exact ⟨⟨s, hs, hst, by rw [← h s hs, e]⟩, by rwa [← below_congr h], by rwa [← within_congr h]⟩

/-- the `k`-th neighbour distance is unique -/
theorem isKthDist_unique {n k t : Nat} {δ : Nat → ℝ} {ε ε' : ℝ} (h : IsKthDist n k t δ ε) (h' : IsKthDist n k t δ ε') :
    ε = ε' := by
  rcases lt_trichotomy ε ε' with hl | he | hl
  · have := within_le_below (n := n) (t := t) (δ := δ) hl
    have := h.2.2; have := h'.2.1; omega
  · exact he
  · have := within_le_below (n := n) (t := t) (δ := δ) hl
    have := h'.2.2; have := h.2.1; omega

theorem minkDist_rows {p : PNorm} {rows : List (List ℝ)} {n d t s : Nat} (hn : rows.length = n) (hp : Points rows d) (ht : t < n)
    (hs : s < n) : minkDist p (rows.getD t []) (rows.getD s []) = dists p.order rows t s :=
  minkDist_eq (by rw [rows_getD_length hn hp ht, rows_getD_length hn hp hs])

theorem dists_nonneg (p : Option ℝ) (X : List (List ℝ)) (t s : Nat) : 0 ≤ dists p X t s := distance_nonneg _ _ _

theorem dists_self {p : Option ℝ} (hp : OrderOk p) (X : List (List ℝ)) (t : Nat) : dists p X t t = 0 := distance_self hp _

theorem count_lt {p : PNorm} (hok : p.ok = true) {rows : List (List ℝ)} {n d t : Nat} (hn : rows.length = n) (hp : Points rows d)
    (ht : t < n) (ε : ℝ) :
    rows.countP (fun y => @decide (minkDist p (rows.getD t []) y < ε) (Classical.propDecidable _)) =
      below n t (dists p.order rows t) ε + (@ite Nat (0 < ε) (Classical.propDecidable _) 1 0) := by
  rw [countP_rows hn (fun y => minkDist p (rows.getD t []) y < ε), countP_range_split ht,
    minkDist_rows hn hp ht ht, dists_self (PNorm.orderOk hok)]
  rw [← below_eq n t (fun s => minkDist p (rows.getD t []) (rows.getD s []))]
  congr 1
  exact below_congr (δ := fun s => minkDist p (rows.getD t []) (rows.getD s []))
    (δ' := dists p.order rows t) (fun s hs => minkDist_rows hn hp ht hs) ε

theorem count_le {p : PNorm} (hok : p.ok = true) {rows : List (List ℝ)} {n d t : Nat} (hn : rows.length = n) (hp : Points rows d)
    (ht : t < n) {ε : ℝ} (hε : 0 ≤ ε) :
    rows.countP (fun y => @decide (minkDist p (rows.getD t []) y ≤ ε) (Classical.propDecidable _)) =
      within n t (dists p.order rows t) ε + 1 := by
  rw [countP_rows hn (fun y => minkDist p (rows.getD t []) y ≤ ε), countP_range_split ht,
    minkDist_rows hn hp ht ht, dists_self (PNorm.orderOk hok), if_pos hε]
  rw [← within_eq n t (fun s => minkDist p (rows.getD t []) (rows.getD s []))]
  congr 1
  exact within_congr (δ := fun s => minkDist p (rows.getD t []) (rows.getD s []))
    (δ' := dists p.order rows t) (fun s hs => minkDist_rows hn hp ht hs) ε

/-- `KDTree.query(data, k + 1)[:, -1]` on the data itself is the distance to the `k`-th nearest other point -/
theorem kthDist_isKth {p : PNorm} (hok : p.ok = true) {rows : List (List ℝ)} {n d t k : Nat} (hn : rows.length = n)
    (hp : Points rows d) (ht : t < n) (hk : 0 < k) (hkn : k < n) :
    ∃ ε, kthDist p rows (k + 1) (rows.getD t []) = some ε ∧ 0 ≤ ε ∧ IsKthDist n k t (dists p.order rows t) ε := by
  obtain ⟨ε, hε⟩ := kthDist_isSome (p := p) (rows := rows) (k := k + 1) (x := rows.getD t []) (by omega) (by omega)
  obtain ⟨⟨y, hy, e⟩, h1, h2⟩ := kthDist_spec hε
  have h0 : 0 ≤ ε := by
    obtain ⟨s, hs, rfl⟩ := List.getElem_of_mem hy
    have : rows[s] = rows.getD s [] := by simp [List.getD_eq_getElem?_getD, hs]
    rw [this, minkDist_rows hn hp ht (by omega)] at e
    rw [← e]; exact dists_nonneg _ _ _ _
  rw [count_lt hok hn hp ht] at h1
  rw [count_le hok hn hp ht h0] at h2
  have hb : below n t (dists p.order rows t) ε < k := by
    rcases h0.lt_or_eq with hpos | hz
    · rw [if_pos hpos] at h1; omega
    · rw [below_eq_zero (fun s _ => by rw [← hz]; exact dists_nonneg _ _ _ _)]; exact hk
  have hw : k ≤ within n t (dists p.order rows t) ε := by omega
  refine ⟨ε, hε, h0, ?_, hb, hw⟩
  by_contra hne
  push Not at hne
  have : within n t (dists p.order rows t) ε ≤ below n t (dists p.order rows t) ε := by
    unfold within below
    exact filter_length_mono _ _ fun s hs h => ⟨h.1, lt_of_le_of_ne h.2 (hne s hs h.1)⟩
  omega

/-- the digamma argument of type I: strictly closer other points plus one -/
theorem ksgArg_one {cfg : KsgCfg} (hid : cfg.ksgId = 1) (hok : cfg.p.ok = true) {rows : List (List ℝ)} {n d t : Nat}
    (hn : rows.length = n) (hp : Points rows d) (ht : t < n) {ε : ℝ} (hε : 0 ≤ ε) :
    ksgArg cfg rows (some ε) (rows.getD t []) = ((below n t (dists cfg.p.order rows t) ε + 1 : ℕ) : ℤ) := by
  unfold ksgArg openCount posFlag
  rw [if_pos hid]
  simp only
  rw [count_lt hok hn hp ht]
  rcases hε.lt_or_eq with hpos | hz
  · rw [if_pos hpos]; push_cast; ring
  · rw [← hz]; simp

/-- the digamma argument of type II: not farther points, including the point itself -/
theorem ksgArg_two {cfg : KsgCfg} (hid : cfg.ksgId ≠ 1) (hok : cfg.p.ok = true) {rows : List (List ℝ)} {n d t : Nat}
    (hn : rows.length = n) (hp : Points rows d) (ht : t < n) {ε : ℝ} (hε : 0 ≤ ε) :
    ksgArg cfg rows (some ε) (rows.getD t []) = ((within n t (dists cfg.p.order rows t) ε + 1 : ℕ) : ℤ) := by
  unfold ksgArg closedCount
  rw [if_neg hid]
  simp only
  rw [count_le hok hn hp ht hε]

/-- too few points: every digamma argument is the sample size -/
theorem ksgArg_none (cfg : KsgCfg) (rows : List (List ℝ)) (x : List ℝ) : ksgArg cfg rows none x = (rows.length : ℤ) := by
  unfold ksgArg openCount closedCount posFlag
  split_ifs <;> simp

/-- the number of neighbours entering the digamma function: strictly closer points for type I, not farther points for type II -/
noncomputable def ksgCount (id : Int) (n t : Nat) (δ : Nat → ℝ) (ε : ℝ) : Nat := if id = 1 then below n t δ ε else within n t δ ε

theorem ksgArg_some {cfg : KsgCfg} (hok : cfg.p.ok = true) {rows : List (List ℝ)} {n d t : Nat}
    (hn : rows.length = n) (hp : Points rows d) (ht : t < n) {ε : ℝ} (hε : 0 ≤ ε) :
    ksgArg cfg rows (some ε) (rows.getD t []) = ((ksgCount cfg.ksgId n t (dists cfg.p.order rows t) ε + 1 : ℕ) : ℤ) := by
  unfold ksgCount
  by_cases h : cfg.ksgId = 1
  · rw [if_pos h, ksgArg_one h hok hn hp ht hε]
  · rw [if_neg h, ksgArg_two h hok hn hp ht hε]

theorem ksgLead_ok {cfg : KsgCfg} (hk : 0 < cfg.k) :
    ksgLead cfg = .ok (if cfg.ksgId = 1 then psi cfg.k else psi cfg.k - 1 / (cfg.k : ℝ)) := by
  unfold ksgLead
  rw [npDigamma_nat _ hk]
  rfl

theorem points_jrow {n : Nat} {as : List Arr} (ha : Aligned n as) :
    Points ((List.range n).map (jrow as)) (as.map Arr.cols).sum := by
  intro x hx
  obtain ⟨t, ht, rfl⟩ := List.mem_map.1 hx
  exact jrow_length ha (List.mem_range.1 ht)

theorem range_map_getD {n t : Nat} (ht : t < n) (g : Nat → List ℝ) : ((List.range n).map g).getD t [] = g t := by
  simp [List.getD_eq_getElem?_getD, ht]

theorem jrow_eq (as : List Arr) (t : Nat) : jrow as t = jointSample (as.map Arr.rows) t := by
  unfold jrow jointSample
  rw [List.map_map]
  rfl

/-- neighbour distance in the joint space -/
theorem joint_kth {p : PNorm} (hok : p.ok = true) {n k t : Nat} {as : List Arr} (ha : Aligned n as) (ht : t < n) (hk : 0 < k)
    (hkn : k < n) :
    ∃ ε, kthDist p ((List.range n).map (jrow as)) (k + 1) (((List.range n).map (jrow as)).getD t []) = some ε ∧ 0 ≤ ε ∧
      IsKthDist n k t (jointDists p.order (as.map Arr.rows) t) ε := by
  obtain ⟨ε, h1, h2, h3⟩ := kthDist_isKth hok (by simp) (points_jrow ha) ht hk hkn
  refine ⟨ε, h1, h2, isKthDist_congr (fun s hs => ?_) h3⟩
  unfold dists jointDists
  rw [range_map_getD ht, range_map_getD hs, jrow_eq, jrow_eq]

end Verif
