import Verif.Model.TE
import Verif.Spec.Embedding
import Verif.Lemmas.Bias
import Mathlib.Tactic.Ring
import Mathlib.Tactic.Linarith

/-! # Lemmas: transfer-entropy slicing -/

namespace Verif

open Spec

theorem lt_numRows {n m s i : Nat} (hs : 0 < s) (hm : m * s < n) : i < numRows n m s ↔ (m + i) * s < n := by
  unfold numRows
  rw [Nat.lt_iff_add_one_le, Nat.le_div_iff_mul_le hs, Nat.add_mul, Nat.add_mul, Nat.one_mul]
  omega

theorem numRows_pos {n m s : Nat} (hs : 0 < s) (hm : m * s < n) : 0 < numRows n m s :=
  (lt_numRows hs hm).2 (by simpa using hm)

theorem npArange_nat (a n s : Nat) (hs : 0 < s) (ha : a ≤ n) :
    npArange (a : Int) (n : Int) (s : Int) =
      (List.range ((n - a + s - 1) / s)).map (fun i : Nat => ((a + i * s : ℕ) : Int)) := by
  unfold npArange
  have h : ((n : Int) - a + s - 1) / s = (((n - a + s - 1) / s : ℕ) : Int) := by
    rw [Int.natCast_ediv]
    congr 1
    omega
  rw [h, Int.toNat_natCast]
  refine List.map_congr_left fun i _ => ?_
  push_cast
  ring

theorem npArange_base (n m s : Nat) (hs : 0 < s) (hm : m * s < n) :
    npArange ((m * s : ℕ) : Int) (n : Int) (s : Int) =
      (List.range (numRows n m s)).map (fun i : Nat => (((m + i) * s : ℕ) : Int)) := by
  rw [npArange_nat _ _ _ hs hm.le]
  refine List.map_congr_left fun i _ => ?_
  push_cast
  ring

theorem npArange_offsets (h s : Nat) (hs : 0 < s) :
    (npArange (s : Int) (((h : Int) + 1) * s) (s : Int)).reverse =
      (List.range h).map (fun j : Nat => (((h - j) * s : ℕ) : Int)) := by
  have e : (((h : Int) + 1) * s) = (((h + 1) * s : ℕ) : Int) := by push_cast; ring
  rw [e, npArange_nat _ _ _ hs (by nlinarith)]
  have hlen : ((h + 1) * s - s + s - 1) / s = h := by
    have : (h + 1) * s - s + s - 1 = s * h + (s - 1) := by
      have : (h + 1) * s = s * h + s := by ring
      omega
    rw [this, Nat.mul_add_div hs, Nat.div_eq_of_lt (by omega)]
    rfl
  rw [hlen]
  refine List.ext_getElem (by simp) fun j h1 h2 => ?_
  have hj : j < h := by simpa using h2
  simp only [List.getElem_reverse, List.getElem_map, List.getElem_range, List.length_map, List.length_range]
  congr 1
  have : h - j = (h - 1 - j) + 1 := by omega
  rw [this]
  ring

/-- index rows of a history -/
theorem histIndices_eq (n m s h : Nat) (hs : 0 < s) (hm : m * s < n) (hh : h ≤ m) :
    histIndices (npArange ((m * s : ℕ) : Int) (n : Int) (s : Int)) (h : Int) (s : Int) =
      (List.range (numRows n m s)).map (fun i => (List.range h).map
        (fun j : Nat => (((m + i - h + j) * s : ℕ) : Int))) := by
  unfold histIndices
  rw [npArange_base n m s hs hm, npArange_offsets h s hs, List.map_map]
  refine List.map_congr_left fun i _ => ?_
  simp only [Function.comp, List.map_map]
  refine List.map_congr_left fun j hj => ?_
  have hj := List.mem_range.1 hj
  simp only [Function.comp]
  have : (m + i) * s = (m + i - h + j) * s + (h - j) * s := by
    rw [← Nat.add_mul]; congr 1; omega
  rw [this]
  push_cast
  ring

theorem npIndex_nat {α : Type} [Inhabited α] (l : List α) (i : Nat) (hi : i < l.length) :
    npIndex l (i : Int) = .ok (l.getD i default) := by
  unfold npIndex
  have h0 : ¬ ((i : Int) < 0) := by omega
  simp only [h0, if_false, Int.toNat_natCast, List.getElem?_eq_getElem hi, List.getD_eq_getElem?_getD, Option.getD_some]

theorem npIndex2_nat {α ι : Type} [Inhabited α] (l : List α) (rows : List ι) (f : ι → List Nat)
    (h : ∀ i ∈ rows, ∀ t ∈ f i, t < l.length) :
    npIndex2 l (rows.map (fun i => (f i).map (fun t : Nat => (t : Int)))) =
      .ok (rows.map (fun i => (f i).map (fun t => l.getD t default))) := by
  unfold npIndex2
  rw [mapM_map']
  refine mapM_ok _ fun i hi => ?_
  rw [mapM_map']
  exact mapM_ok _ fun t ht => npIndex_nat l t (h i hi t ht)

/-- reading a history -/
theorem npIndex2_hist {α : Type} [Inhabited α] (xs : List α) (n m s h : Nat) (hs : 0 < s) (hm : m * s < n)
    (hh : h ≤ m) (hn : n ≤ xs.length) (rows : List Nat) (hr : ∀ i ∈ rows, i < numRows n m s) :
    npIndex2 xs (rows.map (fun i => (List.range h).map
        (fun j : Nat => (((m + i - h + j) * s : ℕ) : Int)))) = .ok (rows.map (histRow xs m s h)) := by
  have := npIndex2_nat xs rows (fun i => (List.range h).map (fun j => (m + i - h + j) * s)) (by
    intro i hi t ht
    obtain ⟨j, hj, rfl⟩ := List.mem_map.1 ht
    have hj := List.mem_range.1 hj
    have h1 := (lt_numRows hs hm).1 (hr i hi)
    have h2 : (m + i - h + j) * s ≤ (m + i) * s := Nat.mul_le_mul_right s (by omega)
    omega)
  simp only [List.map_map] at this
  exact this

theorem npIndex2_fut {α : Type} [Inhabited α] (xs : List α) (n m s : Nat) (hs : 0 < s) (hm : m * s < n)
    (hn : n ≤ xs.length) :
    npIndex2 xs ((npArange ((m * s : ℕ) : Int) (n : Int) (s : Int)).map (fun i => [i])) =
      .ok (futRows xs n m s) := by
  rw [npArange_base n m s hs hm, List.map_map]
  have := npIndex2_nat xs (List.range (numRows n m s)) (fun i => [(m + i) * s]) (by
    intro i hi t ht
    rw [List.mem_singleton.1 ht]
    have h1 := (lt_numRows hs hm).1 (List.mem_range.1 hi)
    omega)
  simp only [List.map_cons, List.map_nil] at this
  exact this

/-- the rows of the source history selected by the random generator -/
def srcSel (rnd : SrcRandom) (R : Nat) : List Nat :=
  match rnd.permute, rnd.resample with
  | some f, _ => f R
  | none, some f => f R
  | none, none => List.range R

/-- the contract of the random generator: `shuffle` permutes the rows, `choice` draws as many rows as
there are, all of them existing -/
def SrcRandom.Lawful (rnd : SrcRandom) : Prop :=
  ¬ (rnd.permute.isSome ∧ rnd.resample.isSome) ∧
  (∀ f ∈ rnd.permute, ∀ R, (f R).Perm (List.range R)) ∧
  (∀ f ∈ rnd.resample, ∀ R, (f R).length = R ∧ ∀ i ∈ f R, i < R)

theorem srcSel_lt {rnd : SrcRandom} (h : rnd.Lawful) (R : Nat) : ∀ i ∈ srcSel rnd R, i < R := by
  obtain ⟨h0, h1, h2⟩ := h
  unfold srcSel
  intro i hi
  cases hp : rnd.permute with
  | some f =>
    rw [hp] at hi
    have := ((h1 f (by rw [hp]; rfl) R).mem_iff).1 hi
    simpa using this
  | none =>
    rw [hp] at hi
    cases hr : rnd.resample with
    | some f =>
      rw [hr] at hi
      exact (h2 f (by rw [hr]; rfl) R).2 i hi
    | none =>
      rw [hr] at hi
      simpa using hi

theorem srcSel_length {rnd : SrcRandom} (h : rnd.Lawful) (R : Nat) : (srcSel rnd R).length = R := by
  obtain ⟨h0, h1, h2⟩ := h
  unfold srcSel
  cases hp : rnd.permute with
  | some f =>
    have := (h1 f (by rw [hp]; rfl) R).length_eq
    simpa using this
  | none =>
    cases hr : rnd.resample with
    | some f => exact (h2 f (by rw [hr]; rfl) R).1
    | none => simp

theorem selectRows_map {β : Type} [Inhabited β] (R : Nat) (g : Nat → β) (sel : List Nat)
    (h : ∀ i ∈ sel, i < R) : selectRows ((List.range R).map g) sel = sel.map g := by
  unfold selectRows
  refine List.map_congr_left fun i hi => ?_
  have := h i hi
  simp [List.getD_eq_getElem?_getD, this]

theorem srcDestSlices_ok {α : Type} [Inhabited α] (source dest : List α) (l k m s : Nat)
    (hs : 0 < s) (hl : l ≤ m) (hk : k ≤ m) (hm : m * s < dest.length) (hlen : source.length = dest.length)
    {rnd : SrcRandom} (hr : rnd.Lawful) :
    srcDestSlices source dest (l : Int) (k : Int) (s : Int) ((m * s : ℕ) : Int) rnd =
      .ok (futRows dest dest.length m s, histRows dest dest.length m s k,
        (srcSel rnd (numRows dest.length m s)).map (histRow source m s l),
        npArange ((m * s : ℕ) : Int) (dest.length : Int) (s : Int)) := by
  have hlt := srcSel_lt hr (numRows dest.length m s)
  have e1 := histIndices_eq dest.length m s l hs hm hl
  have e2 := histIndices_eq dest.length m s k hs hm hk
  have e3 := npIndex2_hist source dest.length m s l hs hm hl hlen.ge _ hlt
  have e4 := npIndex2_hist dest dest.length m s k hs hm hk le_rfl (List.range (numRows dest.length m s))
    (fun i hi => List.mem_range.1 hi)
  have e5 := npIndex2_fut dest dest.length m s hs hm le_rfl
  obtain ⟨p, r⟩ := rnd
  cases p with
  | some f =>
    cases r with
    | some g => exact absurd hr.1 (by simp)
    | none =>
      simp only [srcSel] at hlt e3
      simp only [srcDestSlices, e1, e2, Option.isSome_none, Option.isSome_some, Bool.false_eq_true,
        and_false, if_false, List.length_map, List.length_range, srcSel,
        selectRows_map _ _ _ hlt, e3, e4, e5, bind, Except.bind, pure, Except.pure]
      rfl
  | none =>
    cases r with
    | some g =>
      simp only [srcSel] at hlt e3
      simp only [srcDestSlices, e1, e2, Option.isSome_none, Option.isSome_some, Bool.false_eq_true,
        false_and, if_false, List.length_map, List.length_range, srcSel,
        selectRows_map _ _ _ hlt, e3, e4, e5, bind, Except.bind, pure, Except.pure]
      rfl
    | none =>
      simp only [srcSel] at hlt e3
      simp only [srcDestSlices, e1, e2, Option.isSome_none, Bool.false_eq_true,
        false_and, if_false, srcSel, e3, e4, e5, bind, Except.bind, pure, Except.pure]
      rfl

theorem teObservations_ok {α : Type} [Inhabited α] (source dest : List α) (l k s : Nat)
    (hs : 0 < s) (hl : 0 < l) (hk : 0 < k) (hm : max k l * s < source.length)
    (hlen : source.length = dest.length) {rnd : SrcRandom} (hr : rnd.Lawful) :
    teObservations source dest (.int l) (.int k) (.int s) rnd =
      .ok { src := (srcSel rnd (numRows dest.length (max k l) s)).map (histRow source (max k l) s l)
            dest := histRows dest dest.length (max k l) s k
            fut := futRows dest dest.length (max k l) s } := by
  unfold teObservations
  have h1 : [PyArg.int l, PyArg.int k, PyArg.int s].all PyArg.posInt = true := by
    simp [PyArg.posInt]; omega
  have hmd : max (PyArg.int (k : Int)).val (PyArg.int (l : Int)).val * (PyArg.int (s : Int)).val =
      ((max k l * s : ℕ) : Int) := by
    simp [PyArg.val]
  simp only [h1, hmd]
  rw [if_neg (by simp), if_neg (by omega)]
  have := srcDestSlices_ok source dest l k (max k l) s hs (le_max_right _ _) (le_max_left _ _)
    (hlen ▸ hm) hlen hr
  simp only [PyArg.val, this, bind, Except.bind, pure, Except.pure]

theorem cteObservations_ok {α : Type} [Inhabited α] (source dest cond : List α) (l k c s : Nat)
    (hs : 0 < s) (hl : 0 < l) (hk : 0 < k) (hc : 0 < c) (hm : max (max k l) c * s < source.length)
    (hlen : source.length = dest.length) (hlen2 : cond.length = dest.length)
    {rnd : SrcRandom} (hr : rnd.Lawful) :
    cteObservations source dest cond (.int l) (.int k) (.int c) (.int s) rnd =
      .ok { src := (srcSel rnd (numRows dest.length (max (max k l) c) s)).map
              (histRow source (max (max k l) c) s l)
            dest := histRows dest dest.length (max (max k l) c) s k
            fut := futRows dest dest.length (max (max k l) c) s
            cond := some (histRows cond dest.length (max (max k l) c) s c) } := by
  unfold cteObservations
  have h1 : [PyArg.int l, PyArg.int k, PyArg.int c, PyArg.int s].all PyArg.posInt = true := by
    simp [PyArg.posInt]; omega
  have hmd : max (max (PyArg.int (k : Int)).val (PyArg.int (l : Int)).val) (PyArg.int (c : Int)).val *
      (PyArg.int (s : Int)).val = ((max (max k l) c * s : ℕ) : Int) := by
    simp [PyArg.val]
  simp only [h1, hmd]
  rw [if_neg (by simp), if_neg (by omega)]
  have := srcDestSlices_ok source dest l k (max (max k l) c) s hs (by omega) (by omega)
    (hlen ▸ hm) hlen hr
  have h2 := histIndices_eq dest.length (max (max k l) c) s c hs (hlen ▸ hm) (le_max_right _ _)
  have h3 := npIndex2_hist cond dest.length (max (max k l) c) s c hs (hlen ▸ hm) (le_max_right _ _) hlen2.ge
    (List.range (numRows dest.length (max (max k l) c) s)) (fun i hi => List.mem_range.1 hi)
  simp only [PyArg.val, this, bind, Except.bind, pure, Except.pure, h2, h3]
  rfl

theorem lawful_none : ({} : SrcRandom).Lawful := ⟨by simp, by simp, by simp⟩

theorem srcSel_none (R : Nat) : srcSel {} R = List.range R := rfl

/-! ### Row-wise concatenation -/

theorem concatRows_ok {α : Type} (R : Nat) (f : Nat → List α) (fs : List (Nat → List α)) :
    concatRows ((f :: fs).map (fun g => (List.range R).map g)) =
      .ok ((List.range R).map (fun i => ((f :: fs).map (fun g => g i)).flatten)) := by
  unfold concatRows
  simp only [List.map_cons]
  rw [if_pos (by simp)]
  congr 1
  induction fs generalizing f with
  | nil => simp
  | cons g gs ih =>
    simp only [List.map_cons, List.foldl_cons]
    have : List.zipWith (· ++ ·) ((List.range R).map f) ((List.range R).map g) =
        (List.range R).map (fun i => f i ++ g i) := by
      rw [List.zipWith_map]
      rw [List.zipWith_self]
    rw [this, ih (fun i => f i ++ g i)]
    simp

end Verif
