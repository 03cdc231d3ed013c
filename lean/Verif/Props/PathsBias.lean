import Verif.Props.BiasMI

/-!
# Property C53 : the library's classes meet the hypothesis of the entropy-combination theorems
-/

namespace Verif

open Spec

/-- **C53** The library's entropy-combining classes satisfy the proviso of the `C53` theorems: plug-in, Miller–Madow,
Grassberger and Zhang have local values averaging to the global value; Chao–Shen, Chao–Wang–Jost, Bonachela and the Bayes
class (documented priors, support size unset or positive) have only a global value. -/
theorem C53_classes (b : Base) (hb : b.Valid) :
    (pluginH b).Consistent ∧ (millerMadowH b).Consistent ∧ (grassbergerH b).Consistent ∧ (zhangH b).Consistent ∧
    (chaoShenH b).GlobalOnly ∧ (chaoWangJostH b).GlobalOnly ∧ (bonachelaH b).GlobalOnly ∧
    (∀ (s : String) (p : Prior), NamesPrior s p → ∀ kp : Option Nat, (∀ k, kp = some k → 0 < k) →
      (bayesH (.str s) kp b).GlobalOnly) ∧
    (∀ a : ℝ, 0 ≤ a → ∀ kp : Option Nat, (∀ k, kp = some k → 0 < k) → (bayesH (.num a) kp b).GlobalOnly) := by
  refine ⟨pluginH_consistent hb, millerMadowH_consistent hb, ?_, ?_, ?_, ?_, ?_, ?_, ?_⟩
  · intro xs hx
    refine ⟨_, _, grassbergerSimple_ok hx hb, grassbergerLocal_ok hx hb, by simp, ?_⟩
    rw [mean_map_sample, sum_scale]; rfl
  · intro xs hx
    refine ⟨_, _, zhangSimple_ok xs hb, zhangLocal_ok xs hb, by simp, ?_⟩
    rw [mean_map_sample, sum_scale]; rfl
  · exact fun xs hx => ⟨_, chaoShenSimple_ok hx hb, .inl rfl⟩
  · exact fun xs hx => ⟨_, cwjSimple_ok hx hb, .inr rfl⟩
  · exact fun xs hx => ⟨_, bonachelaSimple_ok xs hb, .inr rfl⟩
  · intro s p hp kp hk xs hx
    have h := bayes_glob (alpha := .str s) (p := p) hb hk (fun K N hK => namesPrior_getAlpha hp hK) xs hx
    exact ⟨_, h.2.1 trivial, h.1⟩
  · intro a ha kp hk xs hx
    have h := bayes_glob (alpha := .num a) (p := .fixed a) hb hk (fun K N _ => ⟨rfl, ha⟩) xs hx
    exact ⟨_, h.2.1 trivial, h.1⟩

/-- non-vacuity: base e and the minimax prior -/
example : (bayesH (.str "min-max") none .e).GlobalOnly :=
  (C53_classes .e trivial).2.2.2.2.2.2.2.1 _ _ (.inr (.inr (.inr ⟨rfl, rfl⟩))) none (by simp)

end Verif
