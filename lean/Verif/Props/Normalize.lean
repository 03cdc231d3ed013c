import Verif.Props.KernelMI2

/-!
# C49: normalisation to [0, 1]; C48: parallel density evaluation
-/

namespace Verif

open Spec

theorem foldl_min_le (x : ℝ) (xs : List ℝ) : xs.foldl min x ≤ x ∧ ∀ y ∈ xs, xs.foldl min x ≤ y := by
  induction xs generalizing x with
  | nil => simp
  | cons a xs ih =>
    obtain ⟨h1, h2⟩ := ih (min x a)
    refine ⟨h1.trans (min_le_left _ _), fun y hy => ?_⟩
    rcases List.mem_cons.1 hy with rfl | hy
    · exact h1.trans (min_le_right _ _)
    · exact h2 y hy

theorem foldl_min_mem (x : ℝ) (xs : List ℝ) : xs.foldl min x ∈ x :: xs := by
  induction xs generalizing x with
  | nil => simp
  | cons a xs ih =>
    have := ih (min x a)
    simp only [List.foldl_cons, List.mem_cons] at this ⊢
    rcases this with h | h
    · rcases min_choice x a with e | e <;> rw [h, e] <;> simp
    · simp [h]

theorem le_foldl_max (x : ℝ) (xs : List ℝ) : x ≤ xs.foldl max x ∧ ∀ y ∈ xs, y ≤ xs.foldl max x := by
  induction xs generalizing x with
  | nil => simp
  | cons a xs ih =>
    obtain ⟨h1, h2⟩ := ih (max x a)
    refine ⟨(le_max_left _ _).trans h1, fun y hy => ?_⟩
    rcases List.mem_cons.1 hy with rfl | hy
    · exact (le_max_right _ _).trans h1
    · exact h2 y hy

theorem foldl_max_mem (x : ℝ) (xs : List ℝ) : xs.foldl max x ∈ x :: xs := by
  induction xs generalizing x with
  | nil => simp
  | cons a xs ih =>
    have := ih (max x a)
    simp only [List.foldl_cons, List.mem_cons] at this ⊢
    rcases this with h | h
    · rcases max_choice x a with e | e <;> rw [h, e] <;> simp
    · simp [h]

/-- `lo` is the smallest and `hi` the largest value of the series -/
structure Range (xs : List ℝ) (lo hi : ℝ) : Prop where
  loMem : lo ∈ xs
  hiMem : hi ∈ xs
  lower : ∀ x ∈ xs, lo ≤ x
  upper : ∀ x ∈ xs, x ≤ hi

theorem range_cons (x : ℝ) (r : List ℝ) : Range (x :: r) (colMin x r) (colMax x r) := by
  refine ⟨foldl_min_mem x r, foldl_max_mem x r, fun y hy => ?_, fun y hy => ?_⟩
  · rcases List.mem_cons.1 hy with rfl | hy
    · exact (foldl_min_le y r).1
    · exact (foldl_min_le x r).2 y hy
  · rcases List.mem_cons.1 hy with rfl | hy
    · exact (le_foldl_max y r).1
    · exact (le_foldl_max x r).2 y hy

theorem Range.unique {xs : List ℝ} {lo hi lo' hi' : ℝ} (h : Range xs lo hi) (h' : Range xs lo' hi') :
    lo = lo' ∧ hi = hi' :=
  ⟨le_antisymm (h.lower _ h'.loMem) (h'.lower _ h.loMem), le_antisymm (h'.upper _ h.hiMem) (h.upper _ h'.hiMem)⟩

/-- Normalising subtracts the minimum and divides by the range. -/
theorem normalize01_ok {xs : List ℝ} {lo hi : ℝ} (h : Range xs lo hi) (hne : lo ≠ hi) :
    normalize01 xs = .ok (xs.map (fun x => (x - lo) / (hi - lo))) := by
  cases xs with
  | nil => exact absurd h.loMem (by simp)
  | cons x r =>
    obtain ⟨e1, e2⟩ := (range_cons x r).unique h
    simp only [normalize01, e1, e2]
    rw [if_neg (sub_ne_zero.2 (Ne.symm hne))]

/-- Non-constant data is mapped into [0, 1] and attains both ends; the result has the same length and order
relations. -/
theorem C49_unit_interval (xs : List ℝ) (hne : ∃ x ∈ xs, ∃ y ∈ xs, x ≠ y) :
    ∃ ys, normalize01 xs = .ok ys ∧ ys.length = xs.length ∧ (∀ y ∈ ys, 0 ≤ y ∧ y ≤ 1) ∧ (0 : ℝ) ∈ ys ∧ (1 : ℝ) ∈ ys ∧
      (∀ i j, i < xs.length → j < xs.length → (ys.getD i 0 < ys.getD j 0 ↔ xs.getD i 0 < xs.getD j 0)) := by
  obtain ⟨u, hu, v, hv, huv⟩ := hne
  obtain ⟨lo, hi, hr⟩ : ∃ lo hi, Range xs lo hi := by
    cases xs with
    | nil => simp at hu
    | cons x r => exact ⟨_, _, range_cons x r⟩
  have hlt : lo < hi := by
    rcases lt_or_gt_of_ne huv with h | h
    · exact (hr.lower u hu).trans_lt (h.trans_le (hr.upper v hv))
    · exact (hr.lower v hv).trans_lt (h.trans_le (hr.upper u hu))
  have hd : 0 < hi - lo := by linarith
  refine ⟨_, normalize01_ok hr hlt.ne, by simp, ?_, ?_, ?_, ?_⟩
  · intro y hy
    obtain ⟨x, hx, rfl⟩ := List.mem_map.1 hy
    have h1 := hr.lower x hx
    have h2 := hr.upper x hx
    exact ⟨div_nonneg (by linarith) hd.le, by rw [div_le_one hd]; linarith⟩
  · exact List.mem_map.2 ⟨lo, hr.loMem, by simp⟩
  · exact List.mem_map.2 ⟨hi, hr.hiMem, div_self hd.ne'⟩
  · intro i j hi' hj'
    simp only [List.getD_eq_getElem?_getD, List.getElem?_map, List.getElem?_eq_getElem hi', List.getElem?_eq_getElem hj',
      Option.map_some, Option.getD_some]
    rw [div_lt_div_iff_of_pos_right hd]
    constructor <;> intro h <;> linarith

example := C49_unit_interval [0, 1, 4] ⟨0, by simp, 1, by simp, by norm_num⟩

theorem range_affine {xs : List ℝ} {lo hi : ℝ} (h : Range xs lo hi) {c : ℝ} (hc : 0 < c) (s : ℝ) :
    Range (xs.map (fun x => c * x + s)) (c * lo + s) (c * hi + s) := by
  refine ⟨List.mem_map.2 ⟨lo, h.loMem, rfl⟩, List.mem_map.2 ⟨hi, h.hiMem, rfl⟩, ?_, ?_⟩ <;>
  · intro y hy
    obtain ⟨x, hx, rfl⟩ := List.mem_map.1 hy
    have h1 := h.lower x hx
    have h2 := h.upper x hx
    nlinarith

theorem range_exists {xs : List ℝ} (hne : xs ≠ []) : ∃ lo hi, Range xs lo hi := by
  cases xs with
  | nil => exact absurd rfl hne
  | cons x r => exact ⟨_, _, range_cons x r⟩

/-- A positive affine change of units does not change the normalised data (including its failure on constant or
empty data). -/
theorem C49_affine_invariant (xs : List ℝ) (c s : ℝ) (hc : 0 < c) :
    normalize01 (xs.map (fun x => c * x + s)) = normalize01 xs := by
  by_cases hne : xs = []
  · subst hne; rfl
  obtain ⟨lo, hi, hr⟩ := range_exists hne
  have hr' := range_affine hr hc s
  by_cases h : lo = hi
  · -- constant data
    have hconst : ∀ (ys : List ℝ) l, ys ≠ [] → Range ys l l → normalize01 ys = .error .nonFinite := by
      intro ys l hy hl
      cases ys with
      | nil => exact absurd rfl hy
      | cons y r =>
        obtain ⟨e1, e2⟩ := (range_cons y r).unique hl
        simp [normalize01, e1, e2]
    subst h
    rw [hconst xs lo hne hr, hconst _ _ (by simpa using hne) hr']
  · rw [normalize01_ok hr h, normalize01_ok hr' (fun e => h (by
      have : c * lo = c * hi := by linarith
      exact mul_left_cancel₀ hc.ne' this))]
    congr 1
    rw [List.map_map]
    refine List.map_congr_left fun x _ => ?_
    have hd : hi - lo ≠ 0 := sub_ne_zero.2 (Ne.symm h)
    simp only [Function.comp]
    rw [show c * x + s - (c * lo + s) = c * (x - lo) by ring, show c * hi + s - (c * lo + s) = c * (hi - lo) by ring,
      mul_div_mul_left _ _ hc.ne']

example := C49_affine_invariant [0, 1, 4] 2 5 (by norm_num)

/-- Normalising twice is the same as once. -/
theorem C49_idempotent (xs : List ℝ) (ys : List ℝ) (h : normalize01 xs = .ok ys) : normalize01 ys = .ok ys := by
  have hne : xs ≠ [] := by rintro rfl; simp [normalize01] at h
  obtain ⟨lo, hi, hr⟩ := range_exists hne
  by_cases e : lo = hi
  · subst e
    cases xs with
    | nil => exact absurd rfl hne
    | cons y r =>
      obtain ⟨e1, e2⟩ := (range_cons y r).unique hr
      simp [normalize01, e1, e2] at h
  rw [normalize01_ok hr e] at h
  have hlt : 0 < hi - lo := by
    have := hr.lower hi hr.hiMem
    rcases lt_or_eq_of_le this with h | h
    · linarith
    · exact absurd h e
  have hy : ys = xs.map (fun x => (hi - lo)⁻¹ * x + - lo / (hi - lo)) := by
    rw [← Except.ok.inj h]
    refine List.map_congr_left fun x _ => ?_
    field_simp
    ring
  have h2 : normalize01 xs = .ok ys := by rw [normalize01_ok hr e, h]
  conv_lhs => rw [hy, C49_affine_invariant xs _ _ (inv_pos.2 hlt)]
  exact h2

example := C49_idempotent [0, 1, 4] [0, 1 / 4, 1] (by norm_num [normalize01, colMax, colMin])

/-- Constant data cannot be normalised: the division by the zero range yields no finite value. -/
theorem C49_constant_not_finite (n : Nat) (hn : 0 < n) (c : ℝ) :
    normalize01 (List.replicate n c) = .error .nonFinite := by
  cases n with
  | zero => omega
  | succ n =>
    have : Range (c :: List.replicate n c) c c := by
      refine ⟨by simp, by simp, ?_, ?_⟩ <;>
      · intro x hx
        simp [List.mem_replicate] at hx
        rcases hx with rfl | ⟨_, rfl⟩ <;> exact le_refl _
    obtain ⟨e1, e2⟩ := (range_cons c (List.replicate n c)).unique this
    rw [List.replicate_succ]
    simp [normalize01, e1, e2]

example := C49_constant_not_finite 3 (by decide) 7

/-- With `normalize=True` a kernel mutual information does not depend on the units of the individual variables. -/
theorem C49_mi_unit_invariant (xs ys : List ℝ) (c s c' s' : ℝ) (hc : 0 < c) (hc' : 0 < c') (cfg : KdeCfg) (b : Base) :
    kernelMI [.one (xs.map (fun x => c * x + s)), .one (ys.map (fun y => c' * y + s'))] (some 0) true cfg b =
      kernelMI [.one xs, .one ys] (some 0) true cfg b := by
  have : kmiInit [.one (xs.map (fun x => c * x + s)), .one (ys.map (fun y => c' * y + s'))] (some 0) true =
      kmiInit [.one xs, .one ys] (some 0) true := by
    by_cases hl : ys.length = xs.length
    · simp [kmiInit, hl, KVar.len, KVar.is2d, normVar, C49_affine_invariant xs c s hc, C49_affine_invariant ys c' s' hc',
        bind, Except.bind, pure, Except.pure]
    · simp [kmiInit, hl, KVar.len, bind, Except.bind]
  simp only [kernelMI, kernelMILocal, this]

example := C49_mi_unit_invariant [0, 1, 4] [2, 2, 0] 2 5 (1 / 3) (-1) (by norm_num) (by norm_num) (boxCfg 1) .e

/-- `normalize=True` is the estimate on the normalised series. -/
theorem C49_mi_normalised (xs ys nx ny : List ℝ) (hlen : xs.length = ys.length) (hx : normalize01 xs = .ok nx)
    (hy : normalize01 ys = .ok ny) (cfg : KdeCfg) (b : Base) :
    kernelMI [.one xs, .one ys] (some 0) true cfg b = kernelMI [.one nx, .one ny] (some 0) false cfg b := by
  have hl : ∀ us vs : List ℝ, normalize01 us = .ok vs → us.length = vs.length := by
    intro us vs h
    cases us with
    | nil => simp [normalize01] at h
    | cons u r =>
      unfold normalize01 at h
      simp only at h
      split_ifs at h
      rw [← Except.ok.inj h]; simp
  have : kmiInit [.one xs, .one ys] (some 0) true = kmiInit [.one nx, .one ny] (some 0) false := by
    have h1 := hl xs nx hx
    have h2 := hl ys ny hy
    simp [kmiInit, KVar.len, KVar.is2d, normVar, hx, hy, hlen, ← h1, ← h2, bind, Except.bind, pure, Except.pure, Except.map]
  simp only [kernelMI, kernelMILocal, this]

example := C49_mi_normalised [0, 1, 4] [2, 2, 0] [0, 1 / 4, 1] [1, 1, 0] rfl (by norm_num [normalize01, colMax, colMin])
  (by norm_num [normalize01, colMax, colMin]) (boxCfg 1) .e

/-- `normalize=True` needs one-dimensional variables: ValueError otherwise. -/
theorem C49_mi_2d_rejected (a : Arr) (y : KVar) (hl : (KVar.two a).len = y.len) (cfg : KdeCfg) (b : Base) :
    kernelMI [.two a, y] (some 0) true cfg b = .error .valueError := by
  simp [kernelMI, kernelMILocal, kmiInit, hl, bind, Except.bind, KVar.is2d]

example : ∃ x ∈ ([2, 4, 3] : List ℝ), ∃ y ∈ ([2, 4, 3] : List ℝ), x ≠ y := ⟨2, by simp, 4, by simp, by norm_num⟩

/-! ### C48 -/

theorem cutSizes_flatten {α : Type} (ss : List Nat) (l : List α) (h : ss.sum = l.length) : (cutSizes ss l).flatten = l := by
  induction ss generalizing l with
  | nil => simp at h; simp [cutSizes, List.length_eq_zero_iff.1 h.symm]
  | cons s ss ih =>
    simp only [cutSizes, List.flatten_cons]
    rw [ih _ (by simp at h ⊢; omega), List.take_append_drop]

theorem splitSizes_sum (n k : Nat) (hk : 0 < k) : (splitSizes n k).sum = n := by
  unfold splitSizes
  rw [List.sum_append, List.sum_replicate, List.sum_replicate, smul_eq_mul, smul_eq_mul, Nat.mul_add, Nat.mul_one]
  have h1 := Nat.mod_lt n hk
  have h2 := Nat.div_add_mod n k
  have h3 : n % k * (n / k) + (k - n % k) * (n / k) = k * (n / k) := by
    rw [← Nat.add_mul]; congr 1; omega
  omega

theorem cutSizes_lengths {α : Type} (ss : List Nat) (l : List α) (h : ss.sum = l.length) :
    (cutSizes ss l).map List.length = ss := by
  induction ss generalizing l with
  | nil => rfl
  | cons s ss ih =>
    simp only [cutSizes, List.map_cons, List.length_take]
    simp at h
    rw [ih _ (by simp; omega), min_eq_left (by omega)]

/-- NumPy's splitting into `k` sections loses nothing, keeps the order, gives exactly `k` sections, and their sizes
differ by at most one. -/
theorem C48_array_split {α : Type} (l : List α) (k : Nat) (hk : 0 < k) :
    (arraySplit l k).flatten = l ∧ (arraySplit l k).length = k ∧
      ∀ c ∈ arraySplit l k, c.length = l.length / k ∨ c.length = l.length / k + 1 := by
  have hs := splitSizes_sum l.length k hk
  have hl := cutSizes_lengths (splitSizes l.length k) l hs
  refine ⟨cutSizes_flatten _ _ hs, ?_, fun c hc => ?_⟩
  · have := congrArg List.length hl
    rw [List.length_map] at this
    unfold arraySplit
    rw [this]
    unfold splitSizes
    have h1 := Nat.mod_lt l.length hk
    simp; omega
  · have : c.length ∈ splitSizes l.length k := by
      rw [← hl]; exact List.mem_map.2 ⟨c, hc, rfl⟩
    unfold splitSizes at this
    rw [List.mem_append, List.mem_replicate, List.mem_replicate] at this
    rcases this with h | h
    · exact .inr h.2
    · exact .inl h.2

example := C48_array_split [5, 7, 5, 2, 1] 3 (by decide)

/-- Evaluating the density in parallel gives the sequential result, in order, for every number of workers ≥ 1 and every
number of points other than one. -/
theorem C48_parallel_eq_sequential {β : Type} (f : List ℝ → β) (nData : Nat) (pts : List (List ℝ)) (workers : Int)
    (hw : 1 ≤ workers) (hp : pts.length ≠ 1) :
    parallelKde f nData pts workers = .ok (pts.map f) := by
  unfold parallelKde
  by_cases h1 : workers = 1 ∨ nData < 20000
  · rw [if_pos h1]
  · rw [if_neg h1]
    have h2 : ¬ (min workers ((max 1 (pts.length / 8000) : ℕ) : Int) ≤ 0) := by omega
    simp only [if_neg h2]
    set W := (min workers ((max 1 (pts.length / 8000) : ℕ) : Int)).toNat with hW
    have hW1 : 0 < W := by omega
    have hW2 : W ≤ max 1 (pts.length / 8000) := by omega
    obtain ⟨e1, e2, e3⟩ := C48_array_split pts W hW1
    unfold concatSqueezed
    rw [if_neg, ← List.map_flatten, e1]
    simp only [List.any_eq_true, List.mem_map, decide_eq_true_eq, not_exists, not_and]
    rintro r ⟨c, hc, rfl⟩
    rw [List.length_map]
    have hsz := e3 c hc
    by_cases hlt : pts.length < 8000
    · have : W = 1 := by
        have : pts.length / 8000 = 0 := Nat.div_eq_of_lt hlt
        omega
      rw [this] at hc e2 e1
      obtain ⟨c', hc'⟩ := List.length_eq_one_iff.1 e2
      rw [hc'] at hc e1
      simp at hc e1
      rw [hc, e1]
      exact hp
    · have h8 : 1 ≤ pts.length / 8000 := by
        rw [Nat.le_div_iff_mul_le (by norm_num)]; omega
      have : 8000 ≤ pts.length / W := by
        rw [Nat.le_div_iff_mul_le hW1]
        have : W ≤ pts.length / 8000 := by omega
        calc 8000 * W ≤ 8000 * (pts.length / 8000) := by gcongr
          _ ≤ pts.length := Nat.mul_div_le _ _
      omega

example := C48_parallel_eq_sequential (fun x => x.length) 30000 [[1, 2], [3, 4], [5, 6]] 4 (by decide) (by decide)

/-- The Gaussian densities of a data set at its own points do not depend on the number of workers. -/
theorem C48_gaussian_workers_irrelevant (a : Arr) (g : Arr → ℝ → Except Exc (List ℝ → ℝ)) (bw : PyArg) (w w' : Int) (hw : 1 ≤ w)
    (hw' : 1 ≤ w') : kdeDensity a none ⟨bw, .gaussian g, w⟩ = kdeDensity a none ⟨bw, .gaussian g, w'⟩ := by
  unfold kdeDensity
  simp only [Option.getD_none]
  cases bw.posNumber with
  | none => rfl
  | some h =>
    simp only [ne_eq, not_true_eq_false, if_false]
    cases g a h with
    | error e => rfl
    | ok f =>
    simp only
    by_cases h1 : a.rows.length = 1
    · have : a.rows.length < 20000 := by omega
      simp [parallelKde, this]
    · rw [C48_parallel_eq_sequential _ _ _ _ hw h1, C48_parallel_eq_sequential _ _ _ _ hw' h1]

example (g : Arr → ℝ → Except Exc (List ℝ → ℝ)) := C48_gaussian_workers_irrelevant ⟨1, [[0], [1], [4]]⟩ g (.num 1) 1 8 (by decide) (by decide)

/-- `workers=-1` (all processors of the machine, whatever their number) gives the densities of a sequential run. -/
theorem C48_all_processors (a : Arr) (g : Arr → ℝ → Except Exc (List ℝ → ℝ)) (bw : PyArg) (cpu : Nat) (hc : 1 ≤ cpu) :
    kdeDensity a none ⟨bw, .gaussian g, resolveWorkers cpu (-1)⟩ = kdeDensity a none ⟨bw, .gaussian g, resolveWorkers cpu 1⟩ := by
  apply C48_gaussian_workers_irrelevant
  · unfold resolveWorkers; rw [if_pos rfl]; exact_mod_cast hc
  · unfold resolveWorkers; rw [if_neg (by norm_num)]

example (g : Arr → ℝ → Except Exc (List ℝ → ℝ)) := C48_all_processors ⟨1, [[0], [1], [4]]⟩ g (.num 1) 8 (by decide)

/-- A worker number other than −1 is stored as given. -/
theorem C48_workers_as_given (cpu : Nat) (w : Int) (hw : w ≠ -1) : resolveWorkers cpu w = w := if_neg hw

example := C48_workers_as_given 8 3 (by decide)

/-- The box densities never depend on the number of workers. -/
theorem C48_box_workers_irrelevant (a : Arr) (o : Option Arr) (bw : PyArg) (w w' : Int) :
    kdeDensity a o ⟨bw, .box, w⟩ = kdeDensity a o ⟨bw, .box, w'⟩ := rfl

/-- The exception: one evaluation point against at least 20000 data points works with one worker but is a ValueError with
more, because the single result was squeezed to zero dimensions. -/
theorem C48_single_point_parallel_fails {β : Type} (f : List ℝ → β) (nData : Nat) (hn : 20000 ≤ nData) (x : List ℝ)
    (workers : Int) (hw : 2 ≤ workers) :
    parallelKde f nData [x] workers = .error .valueError ∧ parallelKde f nData [x] 1 = .ok [f x] := by
  constructor
  · unfold parallelKde
    rw [if_neg (by omega)]
    have : (min workers ((max 1 ([x].length / 8000) : ℕ) : Int)) = 1 := by simp; omega
    simp only [this]
    rw [if_neg (by norm_num)]
    simp [arraySplit, splitSizes, cutSizes, concatSqueezed]
  · simp [parallelKde]

example := C48_single_point_parallel_fails (fun x => x.length) 30000 (by decide) [1, 2] 4 (by decide)

/-- Zero or negative worker numbers (other than the replaced −1) are rejected for large data and ignored for small. -/
theorem C48_nonpositive_workers {β : Type} (f : List ℝ → β) (nData : Nat) (pts : List (List ℝ)) (workers : Int)
    (hw : workers ≤ 0) :
    (20000 ≤ nData → parallelKde f nData pts workers = .error .valueError) ∧
    (nData < 20000 → parallelKde f nData pts workers = .ok (pts.map f)) := by
  constructor
  · intro hn
    unfold parallelKde
    rw [if_neg (by omega), if_pos]
    omega
  · intro hn
    simp [parallelKde, hn]

example := (C48_nonpositive_workers (fun x => x.length) 30000 [[1, 2], [3, 4]] 0 (by decide)).1 (by decide)
example := (C48_nonpositive_workers (fun x => x.length) 3 [[1, 2], [3, 4]] 0 (by decide)).2 (by decide)

end Verif
