import Mathlib.Data.List.Perm.Basic

/-!
# Specification: changes of the data that keep the information

Tables of symbols are lists of variables, each a list of `N` symbols (one per observation).
-/

namespace Verif.Spec

/-- `w` is `v` with the symbols renamed, different symbols of `v` getting different names -/
def Relabelled (v w : List Int) : Prop := ∃ f : Int → Int, (∀ x ∈ v, ∀ y ∈ v, f x = f y → x = y) ∧ w = v.map f

/-- the observations of the variable in the order `σ` -/
def inOrder (σ : List Nat) (v : List Int) : List Int := σ.map (fun t => v.getD t default)

/-- `cols'` arises from `cols` by any sequence of: giving the variables in another order, giving the observations in another order
(the same for all variables), renaming the symbols of each variable -/
inductive Rearranged (N : Nat) : List (List Int) → List (List Int) → Prop
  | order {cols cols' : List (List Int)} (h : cols.Perm cols') : Rearranged N cols cols'
  | samples {cols : List (List Int)} (σ : List Nat) (h : σ.Perm (List.range N)) : Rearranged N cols (cols.map (inOrder σ))
  | rename {cols cols' : List (List Int)} (h : List.Forall₂ Relabelled cols cols') : Rearranged N cols cols'
  | trans {c1 c2 c3 : List (List Int)} (h : Rearranged N c1 c2) (h' : Rearranged N c2 c3) : Rearranged N c1 c3

/-- the same for variables and a condition: the condition stays the condition -/
inductive RearrangedCond (N : Nat) : List (List Int) → List Int → List (List Int) → List Int → Prop
  | order {cols cols' : List (List Int)} {z : List Int} (h : cols.Perm cols') : RearrangedCond N cols z cols' z
  | samples {cols : List (List Int)} {z : List Int} (σ : List Nat) (h : σ.Perm (List.range N)) :
      RearrangedCond N cols z (cols.map (inOrder σ)) (inOrder σ z)
  | rename {cols cols' : List (List Int)} {z z' : List Int} (h : List.Forall₂ Relabelled cols cols') (hz : Relabelled z z') :
      RearrangedCond N cols z cols' z'
  | trans {c1 c2 c3 : List (List Int)} {z1 z2 z3 : List Int} (h : RearrangedCond N c1 z1 c2 z2)
      (h' : RearrangedCond N c2 z2 c3 z3) : RearrangedCond N c1 z1 c3 z3

end Verif.Spec
