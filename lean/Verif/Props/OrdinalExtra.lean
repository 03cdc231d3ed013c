import Verif.Model.OrdinalExtra
import Verif.Props.Ordinal
import Verif.Props.OrdinalMI

/-! # C80: symbolisation reads only the series; the sort-once patterns are the window-wise ones -/

namespace Verif

section
variable {α : Type} [LinearOrder α] [Inhabited α]

/-- **C80** The unchecked strided view used by symbolisation holds, for every memory content, start address and stride, exactly the delay
vectors of the array: no address outside the array is read, and views with a step or reversed views are handled. -/
theorem C80_strided_reads (mem : Int → α) (start stride : Int) (n d step : Nat) (hd : 1 ≤ d) :
    stridedWindows mem start stride n d step = windows (stridedSeries mem start stride n) d step ∧
    (∀ i < n - (d - 1) * step, ∀ j < d, ∃ k < n, start + i * stride + j * (stride * step) = start + k * stride) := by
  have hb : ∀ i < n - (d - 1) * step, ∀ j < d, i + j * step < n := by
    intro i hi j hj
    have : j * step ≤ (d - 1) * step := Nat.mul_le_mul_right _ (by omega)
    omega
  have ha : ∀ i j : Nat, start + i * stride + j * (stride * step) = start + ((i + j * step : Nat) : Int) * stride := by
    intro i j; push_cast; ring
  refine ⟨?_, fun i hi j hj => ⟨i + j * step, hb i hi j hj, ha i j⟩⟩
  unfold stridedWindows windows
  rw [show (stridedSeries mem start stride n).length = n by simp [stridedSeries]]
  refine List.map_congr_left fun i hi => List.map_congr_left fun j hj => ?_
  have := hb i (List.mem_range.1 hi) j (List.mem_range.1 hj)
  rw [ha, getD_lt (by simpa [stridedSeries] using this)]
  simp [stridedSeries]

example := C80_strided_reads (fun a => a * a) 7 (-2) 6 3 1 (by decide)

/-! ### the sort-once extraction -/

/-- entries of `l` inside the window `[t, t+n)`, relative to its start -/
def winPart (l : List Nat) (t n : Nat) : List Nat := (l.filter (fun i => decide (t ≤ i ∧ i < t + n))).map (fun i => i - t)

theorem winPart_append (l : List Nat) (i t n : Nat) :
    winPart (l ++ [i]) t n = winPart l t n ++ (if t ≤ i ∧ i < t + n then [i - t] else []) := by
  unfold winPart
  rw [List.filter_append, List.map_append]
  by_cases h : t ≤ i ∧ i < t + n <;> simp [h]

/-- the inner loop appends to every window that contains `idx` -/
theorem oxInner (L n idx : Nat) (hn : n ≤ L) (hi : idx < L) (ps : List (List Nat)) (hl : ps.length = L) (m : Nat) (hm : m ≤ n) :
    ∃ qs, (List.range m).foldlM (fun ps (k : Nat) => pyAppendAt ps ((idx : Int) - (k : Int)) k) ps = .ok qs ∧ qs.length = L ∧
      ∀ t < L - n + 1, qs[t]? = ps[t]?.map (fun l => l ++ (if t ≤ idx ∧ idx < t + m then [idx - t] else [])) := by
  induction m with
  | zero =>
    refine ⟨ps, rfl, hl, fun t _ => ?_⟩
    rw [if_neg (by omega)]
    cases ps[t]? <;> simp
  | succ m ih =>
    obtain ⟨qs, h1, h2, h3⟩ := ih (by omega)
    rw [List.range_succ, List.foldlM_append, h1]
    simp only [bind, Except.bind, List.foldlM_cons, List.foldlM_nil, pure, Except.pure]
    unfold pyAppendAt
    simp only [h2]
    by_cases hneg : ((idx : Int) - (m : Int)) < 0
    · rw [if_pos hneg, if_pos (by constructor <;> omega)]
      refine ⟨_, rfl, by simpa using h2, fun t ht => ?_⟩
      have hne : ((idx : Int) - (m : Int) + (L : Int)).toNat ≠ t := by omega
      rw [List.getElem?_modify]
      simp only [if_neg hne]
      rw [show (fun a : List Nat => a) <$> qs[t]? = qs[t]? by cases qs[t]? <;> rfl, h3 t ht]
      congr 1
      funext l
      congr 2
      exact propext ⟨fun h => ⟨h.1, by omega⟩, fun h => ⟨h.1, by omega⟩⟩
    · rw [if_neg hneg, if_pos (by constructor <;> omega)]
      refine ⟨_, rfl, by simpa using h2, fun t ht => ?_⟩
      rw [List.getElem?_modify]
      by_cases ht' : ((idx : Int) - (m : Int)).toNat = t
      · simp only [if_pos ht']
        rw [h3 t ht, show (if t ≤ idx ∧ idx < t + m then [idx - t] else []) = [] by rw [if_neg (by omega)],
          show (if t ≤ idx ∧ idx < t + (m + 1) then [idx - t] else []) = [m] by rw [if_pos (by omega)]; congr 1; omega]
        cases ps[t]? <;> simp
      · simp only [if_neg ht']
        rw [show (fun a : List Nat => a) <$> qs[t]? = qs[t]? by cases qs[t]? <;> rfl, h3 t ht]
        congr 1
        funext l
        congr 2
        exact propext ⟨fun h => ⟨h.1, by omega⟩, fun h => ⟨h.1, by omega⟩⟩

theorem oxOuter (L n : Nat) (hn : n ≤ L) (pre : List Nat) (hp : ∀ i ∈ pre, i < L) :
    ∃ qs, pre.foldlM (fun ps (idx : Nat) => (List.range n).foldlM (fun ps (k : Nat) => pyAppendAt ps ((idx : Int) - (k : Int)) k) ps)
      (List.replicate L []) = .ok qs ∧ qs.length = L ∧ ∀ t < L - n + 1, t < L → qs[t]? = some (winPart pre t n) := by
  induction pre using List.reverseRecOn with
  | nil =>
    refine ⟨_, rfl, by simp, fun t _ ht => ?_⟩
    rw [List.getElem?_replicate_of_lt ht]; rfl
  | append_singleton pre i ih =>
    obtain ⟨qs, h1, h2, h3⟩ := ih (fun j hj => hp j (by simp [hj]))
    obtain ⟨rs, g1, g2, g3⟩ := oxInner L n i hn (hp i (by simp)) qs h2 n le_rfl
    rw [List.foldlM_append, h1]
    simp only [bind, Except.bind, List.foldlM_cons, List.foldlM_nil, pure, Except.pure, g1]
    refine ⟨rs, rfl, g2, fun t ht ht' => ?_⟩
    rw [g3 t ht, h3 t ht ht', winPart_append]
    rfl

/-- the part of a sorting permutation of the whole series that falls into a window sorts the window -/
theorem oxPerm (L : Nat) (p : List Nat) (hp : p.Perm (List.range L)) (t n : Nat) (h : t + n ≤ L) :
    (winPart p t n).Perm (List.range n) := by
  have h1 : (p.filter (fun i => decide (t ≤ i ∧ i < t + n))).Perm ((List.range L).filter (fun i => decide (t ≤ i ∧ i < t + n))) :=
    hp.filter _
  refine (h1.map _).trans ?_
  rw [List.perm_iff_count]
  have hnd : ((List.map (fun i => i - t) ((List.range L).filter (fun i => decide (t ≤ i ∧ i < t + n))))).Nodup := by
    refine List.Nodup.map_on ?_ (List.nodup_range.filter _)
    intro a ha b hb hab
    have ha' := of_decide_eq_true (List.mem_filter.1 ha).2
    have hb' := of_decide_eq_true (List.mem_filter.1 hb).2
    omega
  intro a
  refine ((List.perm_ext_iff_of_nodup hnd List.nodup_range).2 (fun a => ?_)).count_eq a
  rw [List.mem_map, List.mem_range]
  constructor
  · rintro ⟨i, hi, rfl⟩
    have := of_decide_eq_true (List.mem_filter.1 hi).2
    omega
  · intro ha
    exact ⟨a + t, List.mem_filter.2 ⟨List.mem_range.2 (by omega), decide_eq_true (by omega)⟩, by omega⟩

theorem oxWindow (a : List α) (t n i : Nat) (hi : i < n) :
    ((List.range n).map (fun j => a.getD (t + j) default)).getD i default = a.getD (t + i) default := by
  rw [getD_lt (by simpa using hi)]
  simp

theorem oxPairwise {R S : Nat → Nat → Prop} (p : List Nat) (t n : Nat) (hp : p.Pairwise R)
    (h : ∀ i j, t ≤ i → i < t + n → t ≤ j → j < t + n → R i j → S (i - t) (j - t)) : (winPart p t n).Pairwise S := by
  unfold winPart
  rw [List.pairwise_map]
  refine (hp.filter _).imp_of_mem ?_
  intro i j hi hj hr
  have hi' := of_decide_eq_true (List.mem_filter.1 hi).2
  have hj' := of_decide_eq_true (List.mem_filter.1 hj).2
  exact h i j hi'.1 hi'.2 hj'.1 hj'.2 hr

theorem oxIsArgsort (a : List α) (p : List Nat) (hp : IsArgsort a p) (t n : Nat) (h : t + n ≤ a.length) :
    IsArgsort ((List.range n).map (fun j => a.getD (t + j) default)) (winPart p t n) := by
  refine ⟨by simpa using oxPerm a.length p hp.perm t n h, ?_⟩
  rw [List.pairwise_map]
  have hs := hp.sorted
  rw [List.pairwise_map] at hs
  refine oxPairwise p t n hs ?_
  intro i j h1 h2 h3 h4 hr
  rw [oxWindow a t n (i - t) (by omega), oxWindow a t n (j - t) (by omega)]
  rwa [Nat.add_sub_cancel' h1, Nat.add_sub_cancel' h3]

theorem oxStable (a : List α) (t n : Nat) (h : t + n ≤ a.length) :
    winPart (argsortStable a) t n = argsortStable ((List.range n).map (fun j => a.getD (t + j) default)) := by
  set w := (List.range n).map (fun j => a.getD (t + j) default) with hw
  have hI := oxIsArgsort a _ (argsortStable_isArgsort a) t n h
  refine (hI.perm.trans (argsortStable_isArgsort w).perm.symm).eq_of_pairwise
    (le := fun i j => w.getD i default < w.getD j default ∨ (w.getD i default = w.getD j default ∧ i < j)) ?_ ?_ (argsortStable_stable w)
  · rintro i j _ _ (h1 | ⟨h1, h1'⟩) (h2 | ⟨h2, h2'⟩)
    · exact absurd h2 (lt_asymm h1)
    · exact absurd h2 (ne_of_gt h1)
    · exact absurd h1 (ne_of_gt h2)
    · omega
  · refine oxPairwise _ t n (argsortStable_stable a) ?_
    intro i j h1 h2 h3 h4 hr
    rw [hw, oxWindow a t n (i - t) (by omega), oxWindow a t n (j - t) (by omega), Nat.add_sub_cancel' h1, Nat.add_sub_cancel' h3]
    exact hr.imp_right (fun h => ⟨h.1, by omega⟩)

/-- **C80** Sorting the whole series once and distributing the sorted positions gives, for every window length from 1 to the length of the
series, one pattern per window; each sorts its window.  With the stable sort these are the patterns of `symbolize_series(…, stable=True)`;
without ties inside a window they are those of any sort. -/
theorem C80_sort_once (q : Argsort α) (a : List α) (n : Nat) (h1 : 1 ≤ n) (hn : n ≤ a.length) (stable : Bool) :
    ∃ ps, subarrayPatterns (sortFun q stable a) n = .ok ps ∧ ps.length = a.length - n + 1 ∧
      (∀ t < a.length - n + 1, ∃ p, ps[t]? = some p ∧ IsArgsort ((List.range n).map (fun j => a.getD (t + j) default)) p) ∧
      (stable = true ∨ Spec.TieFree a n 1 → symbolize q a n 1 stable = .ok ps) := by
  have hs := sortFun_isArgsort q stable a
  set p := sortFun q stable a with hp
  have hL : p.length = a.length := hs.length
  obtain ⟨qs, e1, e2, e3⟩ := oxOuter p.length n (by omega) p (fun i hi => by rw [hL]; exact hs.lt hi)
  have hlen : (qs.take (a.length - n + 1)).length = a.length - n + 1 := by
    rw [List.length_take, e2, hL]; omega
  have hget : ∀ t < a.length - n + 1, (qs.take (a.length - n + 1))[t]? = some (winPart p t n) := by
    intro t ht
    rw [List.getElem?_take_of_lt ht]
    exact e3 t (by omega) (by omega)
  refine ⟨qs.take (a.length - n + 1), ?_, hlen, fun t ht => ⟨_, hget t ht, oxIsArgsort a p hs t n (by omega)⟩, ?_⟩
  · unfold subarrayPatterns
    simp only [e1, bind, Except.bind]
    unfold pyPrefix
    rw [if_neg (by omega), show ((p.length : Int) - n + 1).toNat = a.length - n + 1 by omega]
  · intro hst
    unfold symbolize
    rw [if_neg (by omega), if_neg (by omega), if_neg (by push_cast; omega)]
    congr 1
    refine List.ext_getElem? fun t => ?_
    unfold windows
    simp only [Int.toNat_natCast, Int.toNat_one, mul_one, List.map_map]
    by_cases ht : t < a.length - n + 1
    · rw [hget t ht, List.getElem?_map, List.getElem?_range (by omega), Option.map_some]
      congr 1
      simp only [Function.comp]
      rcases hst with rfl | hst
      · rw [hp]
        simp only [sortFun, if_true]
        exact (oxStable a t n (by omega)).symm
      · refine (oxIsArgsort a p hs t n (by omega)).unique ?_ (sortFun_isArgsort q stable _) |>.symm
        refine hst _ ?_
        unfold Spec.delayVectors
        exact List.mem_map.2 ⟨t, List.mem_range.2 (by omega), by simp⟩
    · rw [List.getElem?_eq_none (by simp; omega), List.getElem?_eq_none (by rw [hlen]; omega)]

example := C80_sort_once stableSort [3, 1, 1, 5, 4, 0] 3 (by decide) (by decide) true

/-- **C80** A window more than one longer than a non-empty series is an IndexError. -/
theorem C80_sort_once_too_long (q : Argsort α) (a : List α) (n : Nat) (hn : a.length + 1 < n) (ha : a ≠ []) (stable : Bool) :
    subarrayPatterns (sortFun q stable a) n = .error .indexError := by
  have hs := sortFun_isArgsort q stable a
  set p := sortFun q stable a with hp
  have hL : p.length = a.length := hs.length
  have inner : ∀ (idx : Nat) (ps : List (List Nat)), idx < a.length → ps.length = a.length → ∀ m,
      (m ≤ idx + a.length + 1 → ∃ qs, (List.range m).foldlM (fun ps (k : Nat) => pyAppendAt ps ((idx : Int) - (k : Int)) k) ps = .ok qs ∧
        qs.length = a.length) ∧
      (idx + a.length + 1 < m →
        (List.range m).foldlM (fun ps (k : Nat) => pyAppendAt ps ((idx : Int) - (k : Int)) k) ps = .error .indexError) := by
    intro idx ps hi hl m
    induction m with
    | zero => exact ⟨fun _ => ⟨ps, rfl, hl⟩, fun h => by omega⟩
    | succ m ih =>
      constructor
      · intro hm
        obtain ⟨qs, h1, h2⟩ := ih.1 (by omega)
        rw [List.range_succ, List.foldlM_append, h1]
        simp only [bind, Except.bind, List.foldlM_cons, List.foldlM_nil, pure, Except.pure]
        unfold pyAppendAt
        simp only [h2]
        by_cases hneg : ((idx : Int) - (m : Int)) < 0
        · rw [if_pos hneg, if_pos (by constructor <;> omega)]
          exact ⟨_, rfl, by simpa using h2⟩
        · rw [if_neg hneg, if_pos (by constructor <;> omega)]
          exact ⟨_, rfl, by simpa using h2⟩
      · intro hm
        rw [List.range_succ, List.foldlM_append]
        by_cases hm' : idx + a.length + 1 < m
        · rw [ih.2 hm']; rfl
        · obtain ⟨qs, h1, h2⟩ := ih.1 (by omega)
          rw [h1]
          simp only [bind, Except.bind, List.foldlM_cons, pure, Except.pure]
          unfold pyAppendAt
          simp only [h2]
          have hj : ((idx : Int) - (m : Int)) < 0 := by omega
          rw [if_pos hj, if_neg (by omega)]
  have h0 : 0 ∈ p := hs.perm.mem_iff.2 (List.mem_range.2 (List.length_pos_iff.2 ha))
  have outer : ∀ (l : List Nat), (∀ i ∈ l, i < a.length) → 0 ∈ l → ∀ ps : List (List Nat), ps.length = a.length →
      l.foldlM (fun ps (idx : Nat) => (List.range n).foldlM (fun ps (k : Nat) => pyAppendAt ps ((idx : Int) - (k : Int)) k) ps) ps
        = .error .indexError := by
    intro l
    induction l with
    | nil => intro _ h; cases h
    | cons i l ih =>
      intro hl hmem ps hps
      rw [List.foldlM_cons]
      by_cases hi : i + a.length + 1 < n
      · rw [(inner i ps (hl i (by simp)) hps n).2 hi]; rfl
      · obtain ⟨qs, g1, g2⟩ := (inner i ps (hl i (by simp)) hps n).1 (by omega)
        rw [g1]
        refine ih (fun j hj => hl j (by simp [hj])) ?_ qs g2
        rcases List.mem_cons.1 hmem with rfl | h
        · omega
        · exact h
  unfold subarrayPatterns
  rw [outer p (fun i hi => hs.lt hi) h0 _ (by simpa using hL)]
  rfl

example := C80_sort_once_too_long stableSort [3, 1, 2, 5, 4, 0] 9 (by decide) (by decide) true

end

/-- the hypotheses of C80 are met: a series with ties, windows of three -/
example : IsArgsort ([3, 1, 2, 2, 5] : List Int) [1, 2, 3, 0, 4] ∧
    subarrayPatterns [1, 2, 3, 0, 4] 3 = .ok [[1, 2, 0], [0, 1, 2], [0, 1, 2]] :=
  ⟨⟨by decide, by decide⟩, rfl⟩

end Verif
