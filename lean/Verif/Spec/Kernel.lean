import Verif.Spec.Info
import Mathlib.Analysis.SpecialFunctions.Log.Basic

/-!
# Independent specification: box-kernel density estimates

A sample is a list of points; a point is the list of its coordinates.  The box of side `h` around a point
contains the points that differ by at most `h/2` in every coordinate.
-/

namespace Verif.Spec

/-- `y` lies in the box of side `h` around `x` -/
def InBox (h : ℝ) (x y : List ℝ) : Prop := ∀ i < x.length, |x.getD i 0 - y.getD i 0| ≤ h / 2

open Classical in
/-- number of sample points in the box of side `h` around `x` -/
noncomputable def boxCount (S : List (List ℝ)) (h : ℝ) (x : List ℝ) : Nat :=
  (S.filter (fun y => decide (InBox h x y))).length

/-- density estimate at `x` from a sample of `d`-dimensional points: fraction of points in the box over
its volume -/
noncomputable def boxDensity (S : List (List ℝ)) (d : Nat) (h : ℝ) (x : List ℝ) : ℝ :=
  (boxCount S h x : ℝ) / (S.length * h ^ d)

/-- resubstitution entropy (natural logarithm): mean of minus the log-density over the sample -/
noncomputable def boxEntropy (S : List (List ℝ)) (d : Nat) (h : ℝ) : ℝ :=
  mean (S.map (fun x => - Real.log (boxDensity S d h x)))

/-- every row has `d` coordinates -/
def Points (S : List (List ℝ)) (d : Nat) : Prop := ∀ x ∈ S, x.length = d

end Verif.Spec

namespace Verif.Spec

open Classical in
/-- number of time points `s < n` at which every variable lies in the box of side `h` around its value at
time `t`; a variable is the list of its samples, a sample the list of its coordinates -/
noncomputable def neighbours (n : Nat) (h : ℝ) (vars : List (List (List ℝ))) (t : Nat) : Nat :=
  ((List.range n).filter (fun s => decide (∀ X ∈ vars, InBox h (X.getD t []) (X.getD s [])))).length

/-- box-kernel mutual information (natural logarithm) of `m` variables over `n` aligned samples: the mean over
`t` of the logarithm of the joint relative frequency of neighbours of `t` over the product of the individual ones -/
noncomputable def boxMI (n : Nat) (h : ℝ) (vars : List (List (List ℝ))) : ℝ :=
  mean ((List.range n).map (fun t =>
    Real.log (((neighbours n h vars t : ℝ) / n) / (vars.map (fun X => (neighbours n h [X] t : ℝ) / n)).prod)))

/-- box-kernel conditional mutual information of two variables given a third -/
noncomputable def boxCMI (n : Nat) (h : ℝ) (X Y Z : List (List ℝ)) : ℝ :=
  mean ((List.range n).map (fun t =>
    Real.log (((neighbours n h [X, Y, Z] t : ℝ) * neighbours n h [Z] t) /
      (neighbours n h [X, Z] t * neighbours n h [Y, Z] t))))

end Verif.Spec
