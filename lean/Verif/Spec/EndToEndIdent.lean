import Verif.Model.EndToEnd
import Verif.Spec.Embedding

/-!
# Specification: information measures as combinations of the results of `im.entropy`
-/

namespace Verif.Spec

/-- `im.mutual_information(x₁, …, xₙ)` is `Σᵢ im.entropy(xᵢ) − im.entropy((x₁, …, xₙ))`, all these calls succeeding -/
def MiFromEntropies (W : World) (aH : PyName) (kwH : Kw) (aM : PyName) (cond : CondKw PyData) (kwM : Kw) (cols : List (List Int)) : Prop :=
  ∃ (h : List Int → ℝ) (hj : ℝ), (∀ c ∈ cols, imEntropy W [.ints c] aH .absent kwH = .ok (h c)) ∧
    imEntropy W [.intTup cols] aH .absent kwH = .ok hj ∧
    imMI W (cols.map .ints) aM cond kwM = .ok ((cols.map h).sum - hj)

/-- `im.conditional_mutual_information(x₁, …, xₙ, cond=z)` — also as `im.mutual_information(…, cond=z)` — is
`Σᵢ im.entropy((xᵢ, z)) − im.entropy((x₁, …, xₙ, z)) − im.entropy(z)`, all these calls succeeding -/
def CmiFromEntropies (W : World) (aH : PyName) (kwH : Kw) (aM : PyName) (kwM : Kw) (cols : List (List Int)) (z : List Int) : Prop :=
  ∃ (h : List Int → ℝ) (hj hz : ℝ), (∀ c ∈ cols, imEntropy W [.intTup [c, z]] aH .absent kwH = .ok (h c)) ∧
    imEntropy W [.intTup (cols ++ [z])] aH .absent kwH = .ok hj ∧ imEntropy W [.ints z] aH .absent kwH = .ok hz ∧
    imCMI W (cols.map .ints) aM (.val (.ints z)) kwM = .ok ((cols.map h).sum - hj - hz) ∧
    imMI W (cols.map .ints) aM (.val (.ints z)) kwM = .ok ((cols.map h).sum - hj - hz)

end Verif.Spec

namespace Verif.Spec

/-- the column of the values `j` steps before the anchor, one entry per row of the embedding (`j = 0`: the future value) -/
def lagCol (xs : List Int) (n m s j : Nat) : List Int := (List.range (numRows n m s)).map (fun i => xs.getD ((m + i - j) * s) default)

/-- the columns of a history of length `h`: `h` steps back, …, one step back -/
def histCols (xs : List Int) (n m s h : Nat) : List (List Int) := (List.range h).map (fun j => lagCol xs n m s (h - j))

/-- the results of `im.entropy` on the tuples `(F, D)`, `(G, D)`, `(F, G, D)` and `D` of columns exist and combine to `v` as
`H(F,D) + H(G,D) − H(F,G,D) − H(D)` -/
def TeCombination (W : World) (aH : PyName) (kwH : Kw) (F : List Int) (G D : List (List Int)) (v : ℝ) : Prop :=
  ∃ h1 h2 h3 h4 : ℝ, imEntropy W [.intTup (F :: D)] aH .absent kwH = .ok h1 ∧ imEntropy W [.intTup (G ++ D)] aH .absent kwH = .ok h2 ∧
    imEntropy W [.intTup (F :: (G ++ D))] aH .absent kwH = .ok h3 ∧ imEntropy W [.intTup D] aH .absent kwH = .ok h4 ∧
    v = h1 + h2 - h3 - h4

end Verif.Spec
