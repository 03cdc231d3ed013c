import Verif.Props.EndToEndIdent3
import Verif.Props.EndToEndEx

/-!
# C91: concrete calls that meet the hypotheses of the identities between the public functions
-/

namespace Verif

open Spec

/-- `kw`, also for the parameter `K` -/
macro "kwk" : tactic => `(tactic| (simp [kwOr, kwList, List.lookup, idnK]; done))

/-- three columns of length four -/
def idA : List Int := [1, 1, 2, 0]
def idB : List Int := [0, 3, 0, 3]
def idC : List Int := [7, 7, 8, 8]

theorem idA_notConst : ¬ IsConst idA := fun h => absurd (h 1 (by simp [idA]) 2 (by simp [idA])) (by decide)
theorem idB_notConst : ¬ IsConst idB := fun h => absurd (h 0 (by simp [idB]) 3 (by simp [idB])) (by decide)
theorem idC_notConst : ¬ IsConst idC := fun h => absurd (h 7 (by simp [idC]) 8 (by simp [idC])) (by decide)

/-- Bayesian estimator with concentration `1/2` -/
theorem idBayes : (BiasClass.bayes (.num (1 / 2)) (Option.map (fun k : Nat => PyArg.int (k : Int)) none)).Means (.bayes (.fixed (1 / 2)) none) :=
  .bayesNum (by norm_num)

/-- the codes `0, 1, 2, 3` label the rows `(1,0), (1,3), (2,0), (0,3)` -/
example := C91_joint_entropy .zhang (by simp [simpleFams]) (b := .e) (call "zhang", []) trivial [0, 1, 2, 3] [idA, idB] 4 (by norm_num) (by simp)
  (by simp [idA, idB]) rfl (by decide)
example := C91_joint_bayes (.num (1 / 2)) none idBayes (b := .e) (call "bayes", [("alpha", .num (1 / 2))]) trivial (by kw) (by kwk) [0, 1, 2, 3] [idA, idB] 4
  (by norm_num) (by simp) (by simp [idA, idB]) rfl (by decide)
example := C91_joint_ansb (b := .e) (call "ansb", []) trivial (by kw) [0, 1, 2, 3] [idA, idB] 4 (by norm_num) (by simp)
  (by simp [idA, idB]) rfl (by decide)
example := C91_joint_nsb (b := .e) (call "nsb", [("K", .int 3)]) trivial (some 3) (by kwk) (by simp) [0, 1, 2, 3] [idA, idB] 4 (by norm_num) (by simp)
  (by simp [idA, idB]) rfl (by decide)

example := C91_mi (b := .num 2) (cond := .none) (call "discrete", [("base", .int 2)]) (call "Discrete", [("base", .num 2)]) (by norm_num [Base.Std]) rfl (by kw)
  [idA, idB, idC] 4 (by norm_num) (by simp) (by simp [idA, idB, idC]) (by norm_num) (.inr (by simp [idA_notConst, idB_notConst, idC_notConst]))
example := C91_mi_miller_madow (b := .e) (cond := .absent) (call "mm", []) (call "miller_madow", []) trivial rfl (by kw)
  [idA, idB] 4 (by norm_num) (by simp) (by simp [idA, idB]) (by norm_num) (.inl rfl)
example := C91_mi_bias .chaoShen (by simp) (b := .e) (cond := .absent) (call "chao_shen", []) (call "Chao_Shen", []) trivial rfl ⟨by kw, by kw⟩
  [idA, idB, [5, 5, 5, 5]] 4 (by norm_num) (by simp) (by simp [idA, idB])
example := C91_mi_bayes (.num (1 / 2)) none idBayes (b := .e) (cond := .absent) (call "bayes", [("alpha", .num (1 / 2))]) (call "bayes", [("alpha", .num (1 / 2))]) trivial
  rfl ⟨by kw, by kw⟩ (by kw) (by kw) (by kwk) (by kwk) [idA, idB] 4 (by norm_num) (by simp) (by simp [idA, idB])
example := C91_mi_ansb (b := .e) (cond := .absent) (call "ansb", []) (call "ansb", []) trivial rfl ⟨by kw, by kw⟩ (1 / 10) (by norm_num) (by kw) (by kw)
  [idA, idB] 4 (by norm_num) (by simp) (by simp [idA, idB])
example := C91_mi_nsb (b := .e) (cond := .absent) (call "nsb", []) (call "nsb", []) trivial rfl ⟨by kw, by kw⟩ none (by kwk) (by kwk) (by simp)
  [idA, idB] 4 (by norm_num) (by simp) (by simp [idA, idB])

example := C91_cmi (b := .e) (call "discrete", []) (call "discrete", []) trivial (by kw) idA idB idC rfl rfl (by simp [idA]) (by norm_num [idA])
example := C91_cmi_miller_madow (b := .e) (call "mm", []) (call "mm", []) trivial (by kw) [idA, idB] idC (by simp [idC]) (by simp) (by simp [idA, idB, idC])
  (by norm_num [idC]) (fun h => idC_notConst h.1)
example := C91_cmi_bias .bonachela (by simp) (b := .e) (call "bonachela", []) (call "bonachela", []) trivial ⟨by kw, by kw⟩ [idA, idB] idC (by simp [idC])
  (by simp) (by simp [idA, idB, idC])
example := C91_cmi_bayes (.num (1 / 2)) none idBayes (b := .e) (call "bayes", [("alpha", .num (1 / 2))]) (call "bayes", [("alpha", .num (1 / 2))]) trivial
  ⟨by kw, by kw⟩ (by kw) (by kw) (by kwk) (by kwk) [idA, idB] idC (by simp [idC]) (by simp) (by simp [idA, idB, idC])
example := C91_cmi_ansb (b := .e) (call "ansb", []) (call "ansb", []) trivial ⟨by kw, by kw⟩ (1 / 10) (by norm_num) (by kw) (by kw)
  [idA, idB] idC (by simp [idC]) (by simp) (by simp [idA, idB, idC])
example := C91_cmi_nsb (b := .e) (call "nsb", []) (call "nsb", []) trivial ⟨by kw, by kw⟩ none (by kwk) (by kwk) (by simp)
  [idA, idB] idC (by simp [idC]) (by simp) (by simp [idA, idB, idC])

example := C91_te (b := .e) (cond := .absent) (call "discrete", []) (call "discrete", [("src_hist_len", .int 2)]) trivial rfl demoHistory (by norm_num)
  (by norm_num) (by norm_num) idA idB (by simp [idA]) rfl (by norm_num [idB])
example := C91_te_miller_madow (b := .e) (cond := .absent) (call "mm", []) (call "mm", [("src_hist_len", .int 2)]) trivial rfl demoHistory (by norm_num)
  (by norm_num) (by norm_num) idA idB (by simp [idA]) rfl (by norm_num [idB])
example := C91_te_bias .grassberger (by simp) (b := .e) (cond := .absent) (call "grassberger", []) (call "grassberger", [("src_hist_len", .int 2)]) trivial rfl demoHistory
  (by norm_num) (by norm_num) (by norm_num) idA idB (by simp [idA]) rfl
example := C91_te_ansb (b := .e) (cond := .absent) (call "ansb", []) (call "ansb", [("src_hist_len", .int 2)]) trivial (1 / 10) (by norm_num) (by kw) (by kw) rfl
  demoHistory (by norm_num) (by norm_num) (by norm_num) idA idB (by simp [idA]) rfl
example := C91_te_nsb (b := .e) (cond := .absent) (call "nsb", []) (call "nsb", [("src_hist_len", .int 2)]) trivial none (by kwk) (by kwk) (by simp) rfl
  demoHistory (by norm_num) (by norm_num) (by norm_num) idA idB (by simp [idA]) rfl

example := C91_cte (b := .e) (c := 1) (call "discrete", []) (call "discrete", [("src_hist_len", .int 2)]) trivial demoHistory (by kw) (by norm_num)
  (by norm_num) (by norm_num) (by norm_num) idA idB idC (by simp [idA]) rfl rfl (by norm_num [idB])
example := C91_cte_miller_madow (b := .e) (c := 1) (call "mm", []) (call "mm", [("src_hist_len", .int 2)]) trivial demoHistory (by kw) (by norm_num)
  (by norm_num) (by norm_num) (by norm_num) idA idB idC (by simp [idA]) rfl rfl (by norm_num [idB])
example := C91_cte_bias .grassberger (by simp) (b := .e) (c := 1) (call "grassberger", []) (call "grassberger", [("src_hist_len", .int 2)]) trivial demoHistory
  (by kw) (by norm_num) (by norm_num) (by norm_num) (by norm_num) idA idB idC (by simp [idA]) rfl rfl
example := C91_cte_ansb (b := .e) (c := 1) (call "ansb", []) (call "ansb", [("src_hist_len", .int 2)]) trivial (1 / 10) (by norm_num) (by kw) (by kw)
  demoHistory (by kw) (by norm_num) (by norm_num) (by norm_num) (by norm_num) idA idB idC (by simp [idA]) rfl rfl
example := C91_cte_nsb (b := .e) (c := 1) (call "nsb", []) (call "nsb", [("src_hist_len", .int 2)]) trivial none (by kwk) (by kwk) (by simp)
  demoHistory (by kw) (by norm_num) (by norm_num) (by norm_num) (by norm_num) idA idB idC (by simp [idA]) rfl rfl

example := C91_mi_self (b := .e) (cond := .absent) (call "discrete", []) (call "discrete", []) trivial rfl (by kw) idA (by simp [idA]) (by norm_num [idA])
example := C91_mi_self_bias .zhang (by simp) (b := .e) (cond := .absent) (call "zhang", []) (call "zhang", []) trivial rfl ⟨by kw, by kw⟩ idA (by simp [idA])
example := C91_shrink_exception (b := .num 2) (cond := .absent) (call "shrink", [("base", .int 2)]) (call "Shrink", [("base", .int 2)]) (by norm_num [Base.Std]) rfl
  ⟨by kw, by kw⟩

example := C91_te_metric_is_cmi (b := .e) (cond := .absent) (l := 1) (k := 1) (s := 1) (call "ksg", [("noise_level", .int 0), ("k", .int 2)])
  (call "metric", [("noise_level", .int 0), ("k", .int 2)]) trivial rfl ⟨by kw, by kw, by kw, by kw, by kw⟩ ⟨by kw, by kw⟩ (by kw) (by kw) one_pos one_pos one_pos
  [0, 1, 3, 1, 4, 9, 2] [5, 7, 1, 2, 0, 3, 3] (by norm_num) rfl .inf rfl 2 (by norm_num) 1 (.inl rfl) (by kw) (by kw) (by kw) (by kw) (by kw) (by kw)
example := C91_cte_metric_is_cmi (b := .e) (l := 1) (k := 1) (s := 1) (c := 1) (call "ksg", [("noise_level", .int 0), ("k", .int 2)])
  (call "metric", [("noise_level", .int 0), ("k", .int 2)]) trivial ⟨by kw, by kw, by kw, by kw, by kw⟩ (by kw) ⟨by kw, by kw⟩ (by kw) (by kw) one_pos one_pos one_pos
  one_pos [0, 1, 3, 1, 4, 9, 2] [5, 7, 1, 2, 0, 3, 3] [1, 1, 2, 2, 0, 0, 1] (by norm_num) rfl rfl .inf rfl 2 (by norm_num) 1 (.inl rfl) (by kw) (by kw) (by kw)
  (by kw) (by kw) (by kw)

theorem idTieFree1 : TieFree ([0, 1, 3, 1, 4] : List ℝ) 2 1 := by
  intro w hw
  simp [delayVectors, List.range_succ] at hw
  rcases hw with rfl | rfl | rfl | rfl <;> norm_num
theorem idTieFree2 : TieFree ([5, 7, 1, 2, 0] : List ℝ) 2 1 := by
  intro w hw
  simp [delayVectors, List.range_succ] at hw
  rcases hw with rfl | rfl | rfl | rfl <;> norm_num

example := C91_mi_ordinal (b := .e) (cond := .absent) (call "ordinal", [("embedding_dim", .int 2)]) (call "symbolic", [("embedding_dim", .int 2), ("stable", .bool true)])
  trivial rfl (by kw) [0, 1, 3, 1, 4] [5, 7, 1, 2, 0] 2 1 false true (by kw) (by kw) (by kw) (by kw) (by kw) (by kw) (by norm_num) (by norm_num) (by norm_num) rfl (by norm_num) (by norm_num)
  idTieFree1 idTieFree2
example := C91_cmi_ordinal (b := .e) (call "ordinal", [("embedding_dim", .int 2)]) (call "symbolic", [("embedding_dim", .int 2), ("stable", .bool true)])
  trivial (by kw) [0, 1, 3, 1, 4] [5, 7, 1, 2, 0] [0, 1, 3, 1, 4] 2 1 false true (by kw) (by kw) (by kw) (by kw) (by kw) (by kw) (by norm_num) (by norm_num) (by norm_num) rfl rfl (by norm_num) (by norm_num)
  idTieFree1 idTieFree2 idTieFree1

end Verif
