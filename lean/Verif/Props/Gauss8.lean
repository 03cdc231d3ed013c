import Verif.Props.Gauss10

/-! # C71: concrete data meeting the hypotheses -/

namespace Verif

open Matrix Spec

/-- There is a solver meeting the contract, and with any such solver the estimator succeeds on these data. -/
example : ∃ eig : Eig, EigOK eig ∧ ∃ v, kernelMI (List.ofFn (fun j => KVar.one (gEx j))) (some 0) false (gaussCfg eig 1 1) .e = .ok v := by
  obtain ⟨eig, he⟩ := eigOK_exists
  exact ⟨eig, he, _, C71_mi_value eig he gEx (by norm_num) (by norm_num) gEx_length gEx_spread 1 one_pos 1 le_rfl .e trivial⟩

example (eig : Eig) (he : EigOK eig) : ∃ v, kernelCMI [.one [0, 1, 0, 1], .one [0, 0, 1, 1]] (some (.one [0, 1, 1, 0])) (some 0) false
    (gaussCfg eig 1 1) .e = .ok v :=
  ⟨_, C71_cmi_value eig he [0, 1, 0, 1] [0, 0, 1, 1] [0, 1, 1, 0] (n := 4) (by norm_num) rfl rfl rfl gEx_spread 1 one_pos 1 le_rfl .e trivial⟩

example : (0 : ℝ) < sampleVar [0, 1, 0, 1] ∧ 2 ≤ ([0, 1, 0, 1] : List ℝ).length := by
  refine ⟨?_, by norm_num⟩
  have := gEx_var 0
  rw [show gEx 0 = [0, 1, 0, 1] from rfl] at this
  rw [this]; norm_num

example (eig : Eig) (he : EigOK eig) : ∃ v, kernelTE [0, 1, 0, 1, 7] [0, 0, 1, 1, 0] (teParams 1 1 1) (some (.int 0)) none
    (gaussCfg eig 1 1) .e = .ok v :=
  ⟨_, C71_te_value eig he [0, 1, 0, 1, 7] [0, 0, 1, 1, 0] 1 1 1 one_pos one_pos one_pos (by norm_num) rfl (by simp [numRows]) 1 one_pos
    1 le_rfl .e trivial {} lawful_none (gEx_te 7)⟩

/-- distinct values for the small-bandwidth limit -/
example : Spread ![([0, 1, 2] : List ℝ), [0, 2, 1]] ∧ ∀ j : Fin 2, (![([0, 1, 2] : List ℝ), [0, 2, 1]] j).Nodup := by
  constructor
  · intro v hv
    have hc : covOf ![([0, 1, 2] : List ℝ), [0, 2, 1]] = !![1, 1 / 2; 1 / 2, 1] := by
      ext i j
      fin_cases i <;> fin_cases j <;> norm_num [covOf, sampleCov, mean]
    rw [hc]
    simp only [dotProduct, Fin.sum_univ_two, mulVec] at hv ⊢
    simp
    nlinarith [sq_nonneg (v 0 + v 1), hv]
  · intro j; fin_cases j <;> norm_num

end Verif
