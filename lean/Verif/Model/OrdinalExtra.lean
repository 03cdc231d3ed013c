import Verif.Model.Ordinal

/-! # Model: the memory reads of symbolisation, and the sort-once pattern extraction -/

namespace Verif

variable {α : Type}

/-- `as_strided(series, shape=(series.size - (d-1)*step, d), strides=(s, s*step))`, `estimators/utils/ordinal.py:123-128`, on raw memory:
the array starts at address `start`, consecutive elements are `stride` apart (in units of the item size; negative for a reversed view).
`as_strided` performs no bounds check, it reads whatever the addresses hold. -/
def stridedWindows (mem : Int → α) (start stride : Int) (size d step : Nat) : List (List α) :=
  (List.range (size - (d - 1) * step)).map (fun (i : Nat) => (List.range d).map (fun (j : Nat) => mem (start + i * stride + j * (stride * step))))

/-- the elements of a one-dimensional array of that layout -/
def stridedSeries (mem : Int → α) (start stride : Int) (size : Nat) : List α :=
  (List.range size).map (fun (k : Nat) => mem (start + k * stride))

/-- `lists[i].append(v)`: Python's negative indices count from the end, anything outside is an IndexError -/
def pyAppendAt (ls : List (List Nat)) (i : Int) (v : Nat) : Except Exc (List (List Nat)) :=
  let j := if i < 0 then i + ls.length else i
  if 0 ≤ j ∧ j < ls.length then .ok (ls.modify j.toNat (fun l => l ++ [v])) else .error .indexError

/-- `l[:k]` -/
def pyPrefix {β : Type} (l : List β) (k : Int) : List β := if k < 0 then l.take (l.length + k).toNat else l.take k.toNat

/-- `OrdinalEntropyEstimator._get_subarray_patterns(a, n, stable_argsort)`, `estimators/entropy/ordinal.py:157-185`, given the sorting
permutation of the whole array (a static method that no other code of the package calls) -/
def subarrayPatterns (sorted : List Nat) (n : Nat) : Except Exc (List (List Nat)) := do
  let ps ← sorted.foldlM (fun ps (idx : Nat) => (List.range n).foldlM (fun ps (k : Nat) => pyAppendAt ps ((idx : Int) - (k : Int)) k) ps)
    (List.replicate sorted.length [])
  .ok (pyPrefix ps ((sorted.length : Int) - n + 1))

end Verif
