import Verif.Spec.BiasInfo

/-!
# Independent specification: how fast the bias corrections disappear

`vanishing N = (1 + log N) / √N`, and for every correction a constant that depends only on the size of the alphabet.
-/

namespace Verif.Spec

/-- the common rate `(1 + log N) / √N` -/
noncomputable def vanishing (N : Nat) : ℝ := (1 + Real.log N) / Real.sqrt N

/-- total weight of the prior in units of `√N`: `K·a` for a fixed concentration, `1` for the two named choices -/
noncomputable def Prior.weight (p : Prior) (K : Nat) : ℝ :=
  match p with
  | .fixed a => K * a
  | .schuermannGrassberger => 1
  | .minimax => 1

/-- the estimate is one whose correction vanishes: every method but ANSB; a Dirichlet prior needs a non-negative
concentration and, if the support size is given, a positive one -/
def Method.Regular (m : Method) : Prop :=
  match m with
  | .ansb => False
  | .bayes p K => (∀ a, p = .fixed a → 0 ≤ a) ∧ ∀ k, K = some k → 0 < k
  | _ => True

/-- the constant for an alphabet of at most `K` symbols -/
noncomputable def Method.constant (m : Method) (K : Nat) : ℝ :=
  match m with
  | .grassberger => 2 * K
  | .chaoShen => 2 * K
  | .chaoWangJost => 2 * K ^ 2
  | .shrink => 2 * K
  | .zhang => K
  | .bonachela => 5 * K
  | .bayes p S => K * p.weight (S.getD K) * (1 + p.weight (S.getD K))
  | .ansb => 0

section
variable {α β : Type} [DecidableEq α] [DecidableEq β]

/-- Shannon entropy (nats) of a distribution `p` on the finite set `S` -/
noncomputable def shannon (S : Finset α) (p : α → ℝ) : ℝ := - ∑ a ∈ S, p a * Real.log (p a)

/-- Shannon entropy (nats) of the image `f(W)` of a random element `W` of `S` distributed as `p`: the probability of `b` is the
sum of `p a` over the `a` with `f a = b` -/
noncomputable def shannonOf (S : Finset α) (p : α → ℝ) (f : α → β) : ℝ :=
  shannon (S.image f) (fun b => ∑ a ∈ S with f a = b, p a)

end

end Verif.Spec
