import Mathlib.Data.List.Dedup
import Mathlib.Data.List.Sort
import Mathlib.Algebra.BigOperators.Group.Finset.Basic
import Mathlib.Algebra.BigOperators.Group.List.Basic
import Mathlib.Data.Finset.Dedup

/-!
# Python / NumPy primitives used by the model

Exceptions are values; arrays are lists.  These definitions model library functions
(NumPy, Python) and are part of the trusted base: they state what the code relies on.
-/

namespace Verif

/-- Python exception classes the modelled code raises
(`infomeasure/utils/exceptions.py` and built-ins). -/
inductive Exc
  | valueError
  | typeError
  | keyError
  | attributeError
  | runtimeError
  | indexError
  | notImplementedError
  | unsupportedOperation
  | theoreticalInconsistency
  | zeroDivisionError
  /-- not a Python exception: the IEEE result is `inf` or `nan` -/
  | nonFinite
  deriving DecidableEq, Repr

/-- `numpy.unique(xs)`: the distinct values in increasing order. -/
def npUnique {α} [LinearOrder α] (xs : List α) : List α :=
  xs.dedup.mergeSort (fun a b => decide (a ≤ b))

/-- `numpy.unique(xs, return_counts=True)[1]`: number of occurrences of every distinct value,
in the order of `npUnique`. -/
def npCounts {α} [LinearOrder α] (xs : List α) : List Nat :=
  (npUnique xs).map (fun a => xs.countP (fun b => decide (b = a)))

/-- position of the first occurrence of `a` in `l` (its length if absent) -/
def posOf {α} [DecidableEq α] (l : List α) (a : α) : Nat := l.findIdx (fun b => decide (b = a))

/-- index of `a` among the sorted distinct values of `xs` -/
def npPos {α} [LinearOrder α] (xs : List α) (a : α) : Nat := posOf (npUnique xs) a

/-- `numpy.unique(xs, return_inverse=True)[1]`: for every element its position in `npUnique`. -/
def npInverse {α} [LinearOrder α] (xs : List α) : List Nat :=
  xs.map (npPos xs)

/-- normalise a slice bound of a sequence of length `n`: negative bounds count from the end, and
bounds are clipped to the sequence (Python data model, `slice.indices`). -/
def pyBound (n : Nat) (i : Int) : Nat := if i < 0 then (i + n).toNat else min i.toNat n

/-- Python slicing `l[start:stop]` (step 1) -/
def pySlice {α} (l : List α) (start stop : Option Int) : List α :=
  (l.take (match stop with | some i => pyBound l.length i | none => l.length)).drop
    (match start with | some i => pyBound l.length i | none => 0)

/-- the Python idiom `i or None` for an integer -/
def orNone (i : Int) : Option Int := if i = 0 then none else some i

section posOf
variable {α : Type*} [DecidableEq α]

theorem posOf_lt {l : List α} {a : α} (h : a ∈ l) : posOf l a < l.length :=
  List.findIdx_lt_length_of_exists ⟨a, h, by simp⟩

theorem getElem_posOf {l : List α} {a : α} (h : a ∈ l) : l[posOf l a]'(posOf_lt h) = a := by
  have := List.findIdx_getElem (w := posOf_lt h)
  exact of_decide_eq_true this

theorem posOf_inj {l : List α} {a b : α} (ha : a ∈ l) (hb : b ∈ l) :
    posOf l a = posOf l b ↔ a = b := by
  refine ⟨fun h => ?_, fun h => by rw [h]⟩
  rw [← getElem_posOf ha, ← getElem_posOf hb]; simp only [h]

theorem posOf_getElem {l : List α} (hl : l.Nodup) (k : Nat) (hk : k < l.length) :
    posOf l l[k] = k := by
  have hm : l[k] ∈ l := List.getElem_mem hk
  exact (hl.getElem_inj_iff).1 (getElem_posOf hm)

end posOf

section lemmas
variable {α : Type*} [LinearOrder α]

theorem npUnique_perm (xs : List α) : (npUnique xs).Perm xs.dedup :=
  List.mergeSort_perm _ _

@[simp] theorem mem_npUnique {xs : List α} {a : α} : a ∈ npUnique xs ↔ a ∈ xs := by
  rw [(npUnique_perm xs).mem_iff, List.mem_dedup]

theorem npUnique_nodup (xs : List α) : (npUnique xs).Nodup :=
  (npUnique_perm xs).nodup_iff.2 (List.nodup_dedup xs)

theorem npUnique_sorted (xs : List α) : (npUnique xs).Pairwise (· ≤ ·) := by
  have := List.pairwise_mergeSort (le := fun a b : α => decide (a ≤ b))
    (fun a b c h1 h2 => by simp at *; exact le_trans h1 h2)
    (fun a b => by simp; exact le_total a b) xs.dedup
  simpa [npUnique] using this

theorem npUnique_strictSorted (xs : List α) : (npUnique xs).Pairwise (· < ·) := by
  refine List.Pairwise.imp₂ (fun _ _ h1 h2 => lt_of_le_of_ne h1 h2) (npUnique_sorted xs)
    (npUnique_nodup xs)

theorem npUnique_length (xs : List α) : (npUnique xs).length = xs.toFinset.card := by
  rw [(npUnique_perm xs).length_eq, List.card_toFinset]

theorem npUnique_toFinset (xs : List α) : (npUnique xs).toFinset = xs.toFinset := by
  ext a; simp

theorem sum_npUnique {M : Type*} [AddCommMonoid M] (xs : List α) (f : α → M) :
    ((npUnique xs).map f).sum = ∑ a ∈ xs.toFinset, f a := by
  rw [← npUnique_toFinset, List.sum_toFinset _ (npUnique_nodup xs)]

theorem npUnique_ne_nil {xs : List α} (h : xs ≠ []) : npUnique xs ≠ [] := by
  obtain ⟨a, ha⟩ := List.exists_mem_of_ne_nil _ h
  exact List.ne_nil_of_mem (mem_npUnique.2 ha)

theorem npPos_inj {xs : List α} {a c : α} (ha : a ∈ xs) (hc : c ∈ xs) :
    npPos xs a = npPos xs c ↔ a = c :=
  posOf_inj (mem_npUnique.2 ha) (mem_npUnique.2 hc)

theorem npPos_lt {xs : List α} {a : α} (ha : a ∈ xs) : npPos xs a < (npUnique xs).length :=
  posOf_lt (mem_npUnique.2 ha)

theorem npPos_getElem (xs : List α) (k : Nat) (hk : k < (npUnique xs).length) :
    npPos xs (npUnique xs)[k] = k := posOf_getElem (npUnique_nodup xs) k hk

@[simp] theorem npInverse_length (xs : List α) : (npInverse xs).length = xs.length := by
  simp [npInverse]

theorem npUnique_const {xs : List α} (hne : xs ≠ []) (h : ∀ a ∈ xs, ∀ c ∈ xs, a = c) :
    (npUnique xs).length = 1 := by
  obtain ⟨a, ha⟩ := List.exists_mem_of_ne_nil _ hne
  rw [npUnique_length, Finset.card_eq_one]
  refine ⟨a, ?_⟩
  ext c
  simp only [List.mem_toFinset, Finset.mem_singleton]
  exact ⟨fun hc => h c hc a ha, fun hc => hc ▸ ha⟩

end lemmas

end Verif
