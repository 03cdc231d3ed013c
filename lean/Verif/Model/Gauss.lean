import Verif.Model.Kernel
import Mathlib.LinearAlgebra.Matrix.PosDef
import Mathlib.Analysis.SpecialFunctions.Exp
import Mathlib.Analysis.SpecialFunctions.Pow.Real
import Mathlib.Analysis.Real.Pi.Bounds

/-!
# Model of the Gaussian density estimate

`infomeasure/estimators/utils/kde.py:104-170`: `gaussian_kernel_densities` and SciPy's `gaussian_kde` with a
scalar `bw_method`, which scales the sample covariance matrix (so the bandwidth is a factor, not a length):
the density at `x` is the average of the normal densities with mean `x_i` and covariance `h² · cov(data)`.

Simplifications: floats are reals, so the Cholesky factorisation fails exactly on matrices that are not
positive definite.  `numpy.linalg.eig` is an arbitrary function; theorems that depend on it assume that it
returns a basis of unit eigenvectors (`IsEigen` below).  `LinAlgError` is a subclass of `ValueError`.
-/

namespace Verif

open Matrix

/-- a row of an array as a vector -/
def vecOf (d : Nat) (r : List ℝ) : Fin d → ℝ := fun j => r.getD j 0

/-- `numpy.mean` of the points -/
noncomputable def meanVec {d : Nat} (pts : List (Fin d → ℝ)) : Fin d → ℝ :=
  fun j => (pts.map (fun p => p j)).sum / (pts.length : ℝ)

/-- `numpy.cov` (normalised by `n - 1`); SciPy's weighted form is the same matrix -/
noncomputable def covMat {d : Nat} (pts : List (Fin d → ℝ)) : Matrix (Fin d) (Fin d) ℝ :=
  fun j k => (pts.map (fun p => (p j - meanVec pts j) * (p k - meanVec pts k))).sum / ((pts.length : ℝ) - 1)

/-- `gaussian_kde(data, bw_method=h).evaluate(x)` for one point: average of normal densities with covariance
`h² cov` -/
noncomputable def gaussAt {d : Nat} (pts : List (Fin d → ℝ)) (h : ℝ) (x : Fin d → ℝ) : ℝ :=
  (pts.map (fun p => Real.exp (-((x - p) ⬝ᵥ ((h ^ 2 • covMat pts)⁻¹ *ᵥ (x - p))) / 2))).sum /
    (pts.length * Real.sqrt ((2 * Real.pi) ^ d * (h ^ 2 • covMat pts).det))

open Classical in
/-- `gaussian_kde(data, bw_method=h)`: the constructor rejects data sets of at most one number and raises
`LinAlgError` if the Cholesky factorisation fails -/
noncomputable def gaussKde {d : Nat} (pts : List (Fin d → ℝ)) (h : ℝ) : Except Exc ((Fin d → ℝ) → ℝ) :=
  if d * pts.length ≤ 1 then .error .valueError
  else if (covMat pts).PosDef ∧ 1 < pts.length then .ok (gaussAt pts h)
  else .error .valueError

/-- `numpy.linalg.eig` followed by sorting in decreasing order, `utils/kde.py:135-138`: eigenvalues with eigenvectors -/
abbrev Eig := (d : Nat) → Matrix (Fin d) (Fin d) ℝ → List (ℝ × (Fin d → ℝ))

/-- the number of eigenvalues above `1e-10`, `utils/kde.py:140` -/
noncomputable def numLarge {d : Nat} (l : List (ℝ × (Fin d → ℝ))) : Nat :=
  open Classical in l.countP (fun e => decide ((1 : ℝ) / 10 ^ 10 < e.1))

/-- `dot(data.T, pca_components).T` for one point: coordinates along the leading eigenvectors -/
noncomputable def projVec {d : Nat} (l : List (ℝ × (Fin d → ℝ))) (k : Nat) (p : Fin d → ℝ) : Fin k → ℝ :=
  fun j => p ⬝ᵥ (l.getD j (0, 0)).2

/-- `gaussian_kernel_densities`, `utils/kde.py:104-162`: data of more than one dimension whose covariance matrix has an
eigenvalue of at most `1e-10` are projected to the leading eigenvectors first. -/
noncomputable def gaussFit (eig : Eig) (data : Arr) (h : ℝ) : Except Exc (List ℝ → ℝ) :=
  let pts := data.rows.map (vecOf data.cols)
  if 1 < data.cols then
    let l := eig data.cols (covMat pts)
    let k := numLarge l
    if k < data.cols then do
      let f ← gaussKde (pts.map (projVec l k)) h
      pure (fun x => f (projVec l k (vecOf data.cols x)))
    else do
      let f ← gaussKde pts h
      pure (fun x => f (vecOf data.cols x))
  else do
    let f ← gaussKde pts h
    pure (fun x => f (vecOf data.cols x))

/-- the kernel `"gaussian"` -/
noncomputable def gaussian (eig : Eig) : Kernel := .gaussian (gaussFit eig)

end Verif
