import Verif.Spec.Info

/-! # Independent specification: empirical (conditional) independence and functional dependence of aligned samples -/

namespace Verif.Spec

variable {α β γ : Type*} [DecidableEq α] [DecidableEq β] [DecidableEq γ]

/-- `X` and `Y` are empirically independent given `Z`: `p(z) p(x,y,z) = p(x,z) p(y,z)` for all values that occur. -/
def CondIndep (xs : List α) (ys : List β) (zs : List γ) : Prop :=
  ∀ x ∈ xs, ∀ y ∈ ys, ∀ z ∈ zs,
    freq zs z * freq (xs.zip (ys.zip zs)) (x, y, z) = freq (xs.zip zs) (x, z) * freq (ys.zip zs) (y, z)

/-- `X` is a function of `Y` on the sample: positions with the same `y` have the same `x`. -/
def Determines (ys : List β) (xs : List α) : Prop :=
  ∀ p ∈ xs.zip ys, ∀ q ∈ xs.zip ys, p.2 = q.2 → p.1 = q.1

/-- `n` aligned variables (columns) are mutually independent on the sample: for every combination of occurring values the joint
frequency is the product of the single frequencies. -/
def Factorises [Inhabited α] (n : Nat) (cols : List (List α)) : Prop :=
  ∀ v : List α, List.Forall₂ (fun a c => a ∈ c) v cols → freq (rows n cols) v = (List.zipWith freq cols v).prod

end Verif.Spec
