import Verif.Spec.Kernel
import Verif.Spec.Bias
import Mathlib.MeasureTheory.Measure.Lebesgue.VolumeOfBalls

/-!
# Independent specification: Minkowski balls and nearest neighbours
-/

namespace Verif.Spec

/-- the closed ball of radius `r` around the origin of `ℝ^d` in the Minkowski norm of order `p` -/
def lpBall (d : Nat) (p r : ℝ) : Set (Fin d → ℝ) := {x | (∑ i, |x i| ^ p) ^ (1 / p) ≤ r}

/-- the closed ball of radius `r` around the origin in the maximum norm -/
def maxBall (d : Nat) (r : ℝ) : Set (Fin d → ℝ) := {x | ∀ i, |x i| ≤ r}

/-- distance of two points given by their coordinates; order `none` is the maximum norm, `some p` the Minkowski norm of
order `p` -/
noncomputable def distance (p : Option ℝ) (x y : List ℝ) : ℝ :=
  match p with
  | none => ⨆ i : Fin x.length, |x.getD i 0 - y.getD i 0|
  | some p => (∑ i : Fin x.length, |x.getD i 0 - y.getD i 0| ^ p) ^ (1 / p)

open Classical in
/-- number of the other points `s ≠ t` among `n` points at distance less than `ε`; `δ s` is the distance from `t` to `s` -/
noncomputable def below (n t : Nat) (δ : Nat → ℝ) (ε : ℝ) : Nat :=
  ((List.range n).filter (fun s => decide (s ≠ t ∧ δ s < ε))).length

open Classical in
/-- number of the other points `s ≠ t` among `n` points at distance at most `ε` -/
noncomputable def within (n t : Nat) (δ : Nat → ℝ) (ε : ℝ) : Nat :=
  ((List.range n).filter (fun s => decide (s ≠ t ∧ δ s ≤ ε))).length

/-- `ε` is the distance from point `t` to its `k`-th nearest other point: it is the distance of some other point, fewer
than `k` others are closer, and at least `k` others are not farther. -/
def IsKthDist (n k t : Nat) (δ : Nat → ℝ) (ε : ℝ) : Prop :=
  (∃ s < n, s ≠ t ∧ δ s = ε) ∧ below n t δ ε < k ∧ k ≤ within n t δ ε

/-- joint sample at time `t`: the coordinates of all variables one after the other -/
def jointSample (vars : List (List (List ℝ))) (t : Nat) : List ℝ := (vars.map (fun X => X.getD t [])).flatten

/-- distances from point `t` to the other points of one variable -/
noncomputable def dists (p : Option ℝ) (X : List (List ℝ)) (t : Nat) : Nat → ℝ := fun s => distance p (X.getD t []) (X.getD s [])

/-- distances from point `t` to the other points in the joint space of several variables -/
noncomputable def jointDists (p : Option ℝ) (vars : List (List (List ℝ))) (t : Nat) : Nat → ℝ :=
  fun s => distance p (jointSample vars t) (jointSample vars s)

/-- Kraskov–Stögbauer–Grassberger, type I, at sample `t` (nats): `ψ(k) − Σ_X ψ(n_X + 1) + (m − 1) ψ(n)`, where `n_X` is the
number of samples whose distance in the variable `X` alone is less than the joint `k`-th neighbour distance `ε` -/
noncomputable def ksgI (p : Option ℝ) (n k : Nat) (vars : List (List (List ℝ))) (t : Nat) (ε : ℝ) : ℝ :=
  psi k - (vars.map (fun X => psi (below n t (dists p X t) ε + 1))).sum + ((vars.length : ℝ) - 1) * psi n

/-- The second variant of the library: non-strict counts including the point itself, and `ψ(k) − 1/k` -/
noncomputable def ksgII (p : Option ℝ) (n k : Nat) (vars : List (List (List ℝ))) (t : Nat) (ε : ℝ) : ℝ :=
  psi k - 1 / k - (vars.map (fun X => psi (within n t (dists p X t) ε + 1))).sum + ((vars.length : ℝ) - 1) * psi n

/-- the same for conditional mutual information given `Z`, type I: `ψ(k) + ψ(n_Z + 1) − Σ_X ψ(n_XZ + 1)` -/
noncomputable def ksgCondI (p : Option ℝ) (n k : Nat) (vars : List (List (List ℝ))) (Z : List (List ℝ)) (t : Nat) (ε : ℝ) : ℝ :=
  psi k + psi (below n t (dists p Z t) ε + 1) -
    (vars.map (fun X => psi (below n t (jointDists p [X, Z] t) ε + 1))).sum

/-- type II -/
noncomputable def ksgCondII (p : Option ℝ) (n k : Nat) (vars : List (List (List ℝ))) (Z : List (List ℝ)) (t : Nat) (ε : ℝ) : ℝ :=
  psi k - 1 / k + psi (within n t (dists p Z t) ε + 1) -
    (vars.map (fun X => psi (within n t (jointDists p [X, Z] t) ε + 1))).sum

/-- Lebesgue volume of the ball of radius `r` in `d` dimensions -/
noncomputable def ballVolume (d : Nat) (p : Option ℝ) (r : ℝ) : ℝ :=
  match p with
  | none => (MeasureTheory.volume (maxBall d r)).toReal
  | some p => (MeasureTheory.volume (lpBall d p r)).toReal

/-- Kozachenko–Leonenko, one sample (nats): `ψ(n) − ψ(k) + log Vol(B(ε))`, with `ε` the distance to the `k`-th nearest other
sample -/
noncomputable def klTerm (p : Option ℝ) (n k d : Nat) (ε : ℝ) : ℝ := psi n - psi k + Real.log (ballVolume d p ε)

open Classical in
/-- `ε` is the `k`-th smallest value of the list: a value of the list with fewer than `k` smaller ones and at least `k` values
not larger -/
def IsKthSmallest (l : List ℝ) (k : Nat) (ε : ℝ) : Prop :=
  ε ∈ l ∧ (l.filter (fun a => decide (a < ε))).length < k ∧ k ≤ (l.filter (fun a => decide (a ≤ ε))).length

/-- constant of the nearest-neighbour estimate of `∫ f^q` (Leonenko, Pronzato, Savani): `C_k = (Γ(k)/Γ(k+1−q))^(1/(1−q))` -/
noncomputable def lpsC (k : Nat) (q : ℝ) : ℝ := (Real.Gamma k / Real.Gamma (k + 1 - q)) ^ (1 / (1 - q))

open Classical in
/-- estimate of `∫ f^q` from the `k`-th neighbour distances: the mean of `ζ^(1−q)` with `ζ = N · C_k · Vol(B(ρ))` (Euclidean
ball); zero distances count as 0 -/
noncomputable def lpsI (N : ℝ) (k d : Nat) (q : ℝ) (ρs : List ℝ) : ℝ :=
  mean (ρs.map (fun ρ => if ρ = 0 then 0 else (N * lpsC k q * ballVolume d (some 2) ρ) ^ (1 - q)))

open Classical in
/-- the same for order one: the mean of `log ζ` with `ζ = N · exp(−ψ(k)) · Vol(B(ρ))` -/
noncomputable def lpsLog (N : ℝ) (k d : Nat) (ρs : List ℝ) : ℝ :=
  mean (ρs.map (fun ρ => if ρ = 0 then 0 else Real.log (N * Real.exp (- psi k) * ballVolume d (some 2) ρ)))

open Classical in
/-- Rényi entropy of order `q` (nats) from the estimate of `∫ f^q` -/
noncomputable def renyiNN (N : ℝ) (k d : Nat) (q : ℝ) (ρs : List ℝ) : ℝ :=
  if q = 1 then lpsLog N k d ρs else Real.log (lpsI N k d q ρs) / (1 - q)

/-- Tsallis entropy of order `q ≠ 1` from the estimate of `∫ f^q` -/
noncomputable def tsallisNN (N : ℝ) (k d : Nat) (q : ℝ) (ρs : List ℝ) : ℝ := (1 - lpsI N k d q ρs) / (q - 1)

end Verif.Spec
