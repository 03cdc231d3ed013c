import Verif.Model.EndToEnd
import Verif.Spec.Info

/-!
# Specification: series of vectors as arguments of the public functions

A series of `w`-component vectors is given as a two-dimensional array with `w` columns; a one-dimensional array is a series of
one-component vectors.
-/

namespace Verif.Spec

open Verif

/-- the array holds the integer vectors `rows`, each of `w` components -/
inductive IntVectors : PyData → Nat → List (List Int) → Prop
  | one (xs : List Int) : IntVectors (.ints xs) 1 (xs.map (fun x => [x]))
  | two (w : Nat) (rows : List (List Int)) (hw : 0 < w) (h : ∀ r ∈ rows, r.length = w) : IntVectors (.imat w rows) w rows

/-- the array holds the vectors `rows` of real numbers, each of `w` components (integer arrays are read as real numbers) -/
inductive RealVectors : PyData → Nat → List (List ℝ) → Prop
  | one (xs : List ℝ) : RealVectors (.reals xs) 1 (xs.map (fun x => [x]))
  | two (w : Nat) (rows : List (List ℝ)) (hw : 0 < w) (h : ∀ r ∈ rows, r.length = w) : RealVectors (.mat ⟨w, rows⟩) w rows
  | int {d : PyData} {w : Nat} {rows : List (List Int)} (h : IntVectors d w rows) :
      RealVectors d w (rows.map (fun r => r.map (fun x : Int => (x : ℝ))))

/-- the arrays `data` hold the series of integer vectors `vars` -/
def VectorData (data : List PyData) (vars : List (List (List Int))) : Prop :=
  List.Forall₂ (fun d v => ∃ w, IntVectors d w v) data vars

/-- a condition: an array of vectors, or a tuple of series taken together (sample `t` is the vector of their values at `t`) -/
inductive Condition : PyData → List (List Int) → Prop
  | array {d : PyData} {w : Nat} {rows : List (List Int)} (h : IntVectors d w rows) : Condition d rows
  | tuple (N : Nat) (cols : List (List Int)) (hne : cols ≠ []) (h : ∀ c ∈ cols, c.length = N) :
      Condition (.intTup cols) (Spec.rows N cols)

end Verif.Spec
