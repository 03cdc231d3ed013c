import Verif.Props.OrdinalMI2

/-! # C57: ordinal transfer entropy -/

namespace Verif

open Spec

section relabel
variable {A B : Type} [Inhabited A] [Inhabited B]

theorem getD_map_range (f : Nat → A) {N i : Nat} (hi : i < N) :
    ((List.range N).map f).getD i default = f i := by
  rw [List.getD_eq_getElem?_getD, getElem?_map_range f hi]; rfl

/-- equality of two embedding rows does not depend on how the samples are named -/
theorem histRow_relabel (f : Nat → A) (f' : Nat → B) {N m s h : Nat} (hs : 0 < s) (hm : m * s < N)
    (hh : h ≤ m) (hff : ∀ i j, i < N → j < N → (f i = f j ↔ f' i = f' j)) {i j : Nat}
    (hi : i < numRows N m s) (hj : j < numRows N m s) :
    (histRow ((List.range N).map f) m s h i = histRow ((List.range N).map f) m s h j ↔
      histRow ((List.range N).map f') m s h i = histRow ((List.range N).map f') m s h j) := by
  unfold histRow
  rw [List.map_inj_left, List.map_inj_left]
  have hlt : ∀ i, i < numRows N m s → ∀ t, t < h → (m + i - h + t) * s < N := by
    intro i hi t ht
    refine lt_trans (Nat.mul_lt_mul_of_pos_right ?_ hs) ((lt_numRows hs hm).1 hi)
    omega
  refine forall_congr' fun t => imp_congr_right fun ht => ?_
  have ht := List.mem_range.1 ht
  rw [getD_map_range f (hlt i hi t ht), getD_map_range f (hlt j hj t ht),
    getD_map_range f' (hlt i hi t ht), getD_map_range f' (hlt j hj t ht)]
  exact hff _ _ (hlt i hi t ht) (hlt j hj t ht)

theorem futRow_relabel (f : Nat → A) (f' : Nat → B) {N m s : Nat} (hs : 0 < s) (hm : m * s < N)
    (hff : ∀ i j, i < N → j < N → (f i = f j ↔ f' i = f' j)) {i j : Nat}
    (hi : i < numRows N m s) (hj : j < numRows N m s) :
    ([((List.range N).map f).getD ((m + i) * s) default] = [((List.range N).map f).getD ((m + j) * s) default] ↔
      [((List.range N).map f').getD ((m + i) * s) default] =
        [((List.range N).map f').getD ((m + j) * s) default]) := by
  have hi := (lt_numRows hs hm).1 hi
  have hj := (lt_numRows hs hm).1 hj
  rw [getD_map_range f hi, getD_map_range f hj, getD_map_range f' hi, getD_map_range f' hj]
  simp only [List.cons.injEq, and_true]
  exact hff _ _ hi hj

end relabel

section relabelTE
variable {A B A' B' : Type} [DecidableEq A] [DecidableEq B] [DecidableEq A'] [DecidableEq B']
  [Inhabited A] [Inhabited B] [Inhabited A'] [Inhabited B']

/-- the textbook transfer entropy does not depend on how the samples are named -/
theorem te_relabel (f : Nat → A) (f' : Nat → A') (g : Nat → B) (g' : Nat → B') {N m s l k : Nat}
    (hs : 0 < s) (hm : m * s < N) (hl : l ≤ m) (hk : k ≤ m)
    (hff : ∀ i j, i < N → j < N → (f i = f j ↔ f' i = f' j))
    (hgg : ∀ i j, i < N → j < N → (g i = g j ↔ g' i = g' j)) :
    Spec.cmi (futRows ((List.range N).map g) N m s) (histRows ((List.range N).map f) N m s l)
      (histRows ((List.range N).map g) N m s k) =
    Spec.cmi (futRows ((List.range N).map g') N m s) (histRows ((List.range N).map f') N m s l)
      (histRows ((List.range N).map g') N m s k) := by
  unfold futRows histRows
  exact cmi_relabel _ _ _ _ _ _ _
    (fun u hu v hv => futRow_relabel g g' hs hm hgg (List.mem_range.1 hu) (List.mem_range.1 hv))
    (fun u hu v hv => histRow_relabel f f' hs hm hl hff (List.mem_range.1 hu) (List.mem_range.1 hv))
    (fun u hu v hv => histRow_relabel g g' hs hm hk hgg (List.mem_range.1 hu) (List.mem_range.1 hv))

end relabelTE

variable {α : Type} [LinearOrder α] [Inhabited α]

/-- integer parameters of the ordinal transfer entropy -/
def ordTEParams (d l k s : Nat) (stable : Bool) (c : Nat := 1) : OrdTEParams :=
  { dim := .int d, stable := stable, te := teParams l k s, condHist := .int c }

/-- the integer code of window `i` -/
def ordCode (q : Argsort α) (stable : Bool) (x : List α) (d s i : Nat) : Int :=
  (lehmer (sortFun q stable (win x d s i)) : Int)

theorem symbolizeInt_win (q : Argsort α) (x : List α) {d s : Nat} (hd : 1 ≤ d) (hd' : d ≤ 20) (hs : 1 ≤ s)
    (hn : (d - 1) * s < x.length) (stable : Bool) :
    symbolizeInt q x d s stable =
      .ok ((List.range (x.length - (d - 1) * s)).map (ordCode q stable x d s)) := by
  rw [symbolizeInt_ok q x hd hd' hs hn stable]
  unfold windows
  rw [List.map_map]
  rfl

theorem ordCode_iff (q : Argsort α) (stable : Bool) {x : List α} {d s i j : Nat} (ht : TieFree x d s)
    (hi : i < x.length - (d - 1) * s) (hj : j < x.length - (d - 1) * s) :
    ordCode q stable x d s i = ordCode q stable x d s j ↔
      rankPattern (win x d s i) = rankPattern (win x d s j) := by
  rw [← sortFun_iff_rank q stable ht hi hj]
  unfold ordCode
  refine ⟨fun h => lehmer_inj ?_ (by exact_mod_cast h), fun h => by rw [h]⟩
  exact (sortFun_perm_of_mem q stable (win_mem hi)).trans (sortFun_perm_of_mem q stable (win_mem hj)).symm

/-- the ordinal transfer entropy is the discrete transfer entropy of the integer-coded patterns, whatever
the permutation state -/
theorem ordTE_eq_discrete (q : Argsort α) (x y : List α) (hxy : x.length = y.length) {d s : Nat}
    (l k : Nat) (hd : 1 ≤ d) (hd' : d ≤ 20) (hs : 1 ≤ s) (hn : (d - 1) * s < x.length) (stable : Bool)
    (b : Base) (rnd : SrcRandom) :
    ordTE q x y (ordTEParams d l k s stable) (some (.int 0)) none b rnd =
      discreteTE ((List.range (x.length - (d - 1) * s)).map (ordCode q stable x d s))
        ((List.range (x.length - (d - 1) * s)).map (ordCode q stable y d s)) (teParams l k s)
        (some (.int 0)) none b false rnd := by
  unfold ordTE ordTEParams
  simp only [teInit_zero hxy, bind, Except.bind]
  have hc := ordPairChecks_ok (lo := 0) (n := x.length) (d := d) (s := s) (by omega) hn hd
  have hy := symbolizeInt_win q y hd hd' hs (hxy ▸ hn) stable
  rw [← hxy] at hy
  simp only [teParams, hc, symbolizeInt_win q x hd hd' hs hn stable, hy]
  unfold discreteTE
  rw [teInit_zero (by simp)]
  simp only [bind, Except.bind]
  split <;> simp

/-- **C57** For tie-free series the ordinal transfer entropy is the textbook transfer entropy of the two
ordinal pattern sequences, in the embedding with the given history lengths and step size. -/
theorem C57_ordinal_te_is_textbook (q : Argsort α) (x y : List α) (hxy : x.length = y.length) (d s l k : Nat)
    (hd : 1 ≤ d) (hd' : d ≤ 20) (hs : 1 ≤ s) (hl : 0 < l) (hk : 0 < k)
    (hn : (d - 1) * s + max k l * s < x.length) (hov : x.length < 2 ^ 32) (stable : Bool)
    (htx : TieFree x d s) (hty : TieFree y d s) (b : Base) (hb : b.Valid) :
    let N := x.length - (d - 1) * s
    ordTE q x y (ordTEParams d l k s stable) (some (.int 0)) none b =
      .ok (Spec.cmi (futRows (ordPatterns y d s) N (max k l) s) (histRows (ordPatterns x d s) N (max k l) s l)
        (histRows (ordPatterns y d s) N (max k l) s k) / b.ln) := by
  intro N
  have hm : max k l * s < N := by omega
  rw [ordTE_eq_discrete q x y hxy l k hd hd' hs (by omega) stable b {}]
  have h := C24_te_is_textbook ((List.range N).map (ordCode q stable x d s))
    ((List.range N).map (ordCode q stable y d s)) l k s hs hl hk (by simpa using hm) (by simp)
    (by simp; omega) b hb
  simp only [List.length_map, List.length_range] at h
  rw [h]
  congr 2
  rw [ordPatterns_win, ordPatterns_win, ← hxy]
  refine te_relabel _ _ _ _ hs hm (le_max_right _ _) (le_max_left _ _) (fun i j hi hj => ?_)
    (fun i j hi hj => ?_)
  · exact ordCode_iff q stable htx hi hj
  · exact ordCode_iff q stable hty (by rw [← hxy]; exact hi) (by rw [← hxy]; exact hj)

example := C57_ordinal_te_is_textbook stableSort [3, 1, 2, 5, 4, 0] [2, 7, 1, 5, 0, 3] rfl 3 1 1 2 (by decide) (by decide) (by decide) (by decide) (by decide) (by decide) (by decide) false (by unfold TieFree delayVectors; decide) (by unfold TieFree delayVectors; decide) (.num 2) (by norm_num [Base.Valid])

end Verif
