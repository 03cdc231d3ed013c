import Mathlib.Data.List.Basic

/-!
# Independent specification: time-delay embedding

A series is a list of samples, `s` the step, `m` the larger history length.  Row `i` of the embedding
is anchored at time `(m + i) s` (the future); a history of length `h` consists of the samples at the times
`(m + i − h) s, …, (m + i − 1) s`, in this order.
-/

namespace Verif.Spec

variable {α : Type*}

/-- number of rows: the anchors `m s, (m+1) s, …` that are smaller than the series length `n` -/
def numRows (n m s : Nat) : Nat := (n - m * s + s - 1) / s

/-- history of length `h` of row `i` -/
def histRow [Inhabited α] (xs : List α) (m s h i : Nat) : List α :=
  (List.range h).map (fun j => xs.getD ((m + i - h + j) * s) default)

/-- histories of all rows -/
def histRows [Inhabited α] (xs : List α) (n m s h : Nat) : List (List α) :=
  (List.range (numRows n m s)).map (histRow xs m s h)

/-- future value of all rows (one column) -/
def futRows [Inhabited α] (xs : List α) (n m s : Nat) : List (List α) :=
  (List.range (numRows n m s)).map (fun i => [xs.getD ((m + i) * s) default])

end Verif.Spec
