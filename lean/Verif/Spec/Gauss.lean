import Verif.Spec.Info
import Mathlib.LinearAlgebra.Matrix.PosDef
import Mathlib.LinearAlgebra.Matrix.NonsingularInverse
import Mathlib.LinearAlgebra.LinearIndependent.Defs
import Mathlib.Analysis.SpecialFunctions.Exp
import Mathlib.Analysis.SpecialFunctions.Log.Basic
import Mathlib.Analysis.Real.Pi.Bounds

/-!
# Independent specification: Gaussian-kernel density estimates

The estimate at a point is the average of normal densities centred at the sample points, whose covariance is the
sample covariance times the squared bandwidth factor.
-/

namespace Verif.Spec

open Matrix

/-- unbiased sample covariance of two series -/
noncomputable def sampleCov (xs ys : List ℝ) : ℝ :=
  ((xs.zip ys).map (fun p => (p.1 - mean xs) * (p.2 - mean ys))).sum / ((xs.length : ℝ) - 1)

/-- unbiased sample variance -/
noncomputable def sampleVar (xs : List ℝ) : ℝ := sampleCov xs xs

/-- normal density with mean `m` and variance `v` -/
noncomputable def normal1 (m v x : ℝ) : ℝ := Real.exp (-(x - m) ^ 2 / (2 * v)) / Real.sqrt (2 * Real.pi * v)

/-- Gaussian density estimate from a series, bandwidth factor `h` -/
noncomputable def gauss1 (xs : List ℝ) (h x : ℝ) : ℝ := mean (xs.map (fun m => normal1 m (h ^ 2 * sampleVar xs) x))

/-- matrix of the sample covariances of several series -/
noncomputable def covOf {m : Nat} (X : Fin m → List ℝ) : Matrix (Fin m) (Fin m) ℝ := fun j k => sampleCov (X j) (X k)

/-- multivariate normal density with mean `μ` and covariance `S` -/
noncomputable def normalPdf {m : Nat} (S : Matrix (Fin m) (Fin m) ℝ) (μ x : Fin m → ℝ) : ℝ :=
  Real.exp (-((x - μ) ⬝ᵥ (S⁻¹ *ᵥ (x - μ))) / 2) / Real.sqrt ((2 * Real.pi) ^ m * S.det)

/-- the values of all series at time `t` -/
def atTime {m : Nat} (X : Fin m → List ℝ) (t : Nat) : Fin m → ℝ := fun j => (X j).getD t 0

/-- Gaussian density estimate from `m` series of length `n`, bandwidth factor `h` -/
noncomputable def gaussJoint {m : Nat} (n : Nat) (X : Fin m → List ℝ) (h : ℝ) (x : Fin m → ℝ) : ℝ :=
  mean ((List.range n).map (fun t => normalPdf (h ^ 2 • covOf X) (atTime X t) x))

/-- resubstitution entropy (natural logarithm) -/
noncomputable def gaussEntropy {m : Nat} (n : Nat) (X : Fin m → List ℝ) (h : ℝ) : ℝ :=
  mean ((List.range n).map (fun t => - Real.log (gaussJoint n X h (atTime X t))))

/-- mutual information (natural logarithm) of `m` series -/
noncomputable def gaussMI {m : Nat} (n : Nat) (X : Fin m → List ℝ) (h : ℝ) : ℝ :=
  mean ((List.range n).map (fun t =>
    Real.log (gaussJoint n X h (atTime X t) / ∏ j, gauss1 (X j) h ((X j).getD t 0))))

/-- every direction has sample variance above `1e-10`, the cut-off of the estimator -/
def Spread {m : Nat} (X : Fin m → List ℝ) : Prop :=
  ∀ v : Fin m → ℝ, v ⬝ᵥ v = 1 → 1 / 10 ^ 10 < v ⬝ᵥ (covOf X *ᵥ v)

/-- what `numpy.linalg.eig` promises for symmetric matrices (after sorting): `d` linearly independent unit
eigenvectors with their eigenvalues, the largest first -/
def EigOK (eig : (d : Nat) → Matrix (Fin d) (Fin d) ℝ → List (ℝ × (Fin d → ℝ))) : Prop :=
  ∀ (d : Nat) (S : Matrix (Fin d) (Fin d) ℝ), S.IsSymm →
    (eig d S).length = d ∧
    (∀ e ∈ eig d S, e.2 ⬝ᵥ e.2 = 1 ∧ S *ᵥ e.2 = e.1 • e.2) ∧
    LinearIndependent ℝ (fun i : Fin d => ((eig d S).getD i (0, 0)).2) ∧
    (eig d S).Pairwise (fun e f => f.1 ≤ e.1)

/-- conditional mutual information (natural logarithm) of two series given a third -/
noncomputable def gaussCMI (n : Nat) (x y z : List ℝ) (h : ℝ) : ℝ :=
  mean ((List.range n).map (fun t =>
    Real.log ((gaussJoint n ![x, y, z] h (atTime ![x, y, z] t) * gauss1 z h (z.getD t 0)) /
      (gaussJoint n ![x, z] h (atTime ![x, z] t) * gaussJoint n ![y, z] h (atTime ![y, z] t)))))

/-- the `c` coordinate series of the points `F 0, …, F (R-1)` -/
def columns (R c : Nat) (F : Nat → List ℝ) : Fin c → List ℝ := fun j => (List.range R).map (fun i => (F i).getD j 0)

/-- Gaussian density estimate from the points `F 0, …, F (R-1)` with `c` coordinates, at the point `F t` -/
noncomputable def rowDensity (R c : Nat) (F : Nat → List ℝ) (h : ℝ) (t : Nat) : ℝ :=
  gaussJoint R (columns R c F) h (atTime (columns R c F) t)

/-- transfer entropy (natural logarithm) from `R` embedded observations: `f i` is the next value of the destination, `g i` (`l`
coordinates) the history of the source, `d i` (`k` coordinates) the history of the destination, `z i` (`c` coordinates) that of
the condition -/
noncomputable def gaussTE (R l k c : Nat) (f : Nat → ℝ) (g d z : Nat → List ℝ) (h : ℝ) : ℝ :=
  mean ((List.range R).map (fun t => Real.log (
    (rowDensity R (l + k + 1 + c) (fun i => g i ++ d i ++ [f i] ++ z i) h t * rowDensity R (k + c) (fun i => d i ++ z i) h t) /
    (rowDensity R (k + 1 + c) (fun i => d i ++ [f i] ++ z i) h t * rowDensity R (l + k + c) (fun i => g i ++ d i ++ z i) h t))))

end Verif.Spec
