import Verif.Props.EndToEndNoise2
import Verif.Props.EndToEndEx

/-!
# C85: concrete calls that meet the hypotheses of the noise theorems
-/

namespace Verif
open Spec

/-- a literal noise level -/
macro "noise" : tactic => `(tactic| (simp [kwOr, kwList, List.lookup, PyVal.toNoise, PyVal.toNum]; done))

example := C85_mi (b := .e) (cond := .none) (call "ksg", [("noise_level", .num 1), ("k", .int 2)]) rfl ⟨by kw, by kw⟩ 1 .inf 2 1
  (by noise) (by kw) (by kw) (by kw) [.one [0, 1, 3, 7], .one [2, 1, 0, 5]] (by simp)
example := C85_mi_renyi (b := .e) (cond := .none) (call "renyi", [("noise_level", .num 1), ("alpha", .num 2), ("k", .int 2)]) rfl ⟨by kw, by kw⟩ 1 (.int 2) (.num 2)
  (by noise) (by kw) (by kw) [.one [0, 1, 3, 7], .one [2, 1, 0, 5]] (by simp)
example := C85_mi_tsallis (b := .e) (cond := .none) (call "tsallis", [("noise_level", .num 1), ("q", .num 2), ("k", .int 2)]) rfl ⟨by kw, by kw⟩ 1 (.int 2) (.num 2)
  (by noise) (by kw) (by kw) [.one [0, 1, 3, 7], .one [2, 1, 0, 5]] (by simp)
example := C85_cmi (b := .e) (call "ksg", [("noise_level", .num 1), ("k", .int 2)]) ⟨by kw, by kw⟩ 1 .inf 2 1
  (by noise) (by kw) (by kw) (by kw) [.one [0, 1, 3, 7], .one [2, 1, 0, 5]] (.one [1, 0, 0, 4]) (by simp) 4 (by simp [KVar.len])
example := C85_te (b := .e) (cond := .absent) (call "ksg", [("noise_level", .num 1), ("k", .int 2)]) rfl 1 .inf 2 1
  (by noise) (by kw) (by kw) (by kw) (by kw) (by kw) (.int 1) (.int 1) (.int 1) (by kw) (by kw) (by kw) [0, 1, 3, 7] [2, 1, 0, 5] rfl
example := C85_cte (b := .e) (call "ksg", [("noise_level", .num 1), ("k", .int 2)]) 1 .inf 2 1
  (by noise) (by kw) (by kw) (by kw) (by kw) (by kw) (.int 1) (.int 1) (.int 1) (by kw) (by kw) (by kw) (.int 1) (by kw) [0, 1, 3, 7] [2, 1, 0, 5] [1, 0, 0, 4] rfl rfl
example := C85_cte_renyi (b := .e) (call "renyi", [("noise_level", .num 1), ("alpha", .num 2), ("k", .int 2)]) 1 (.int 2) (.num 2)
  (by noise) (by kw) (by kw) (by kw) (by kw) (.int 1) (.int 1) (.int 1) (by kw) (by kw) (by kw) (.int 1) (by kw) [0, 1, 3, 7] [2, 1, 0, 5] [1, 0, 0, 4] rfl rfl
example := C85_entropy (b := .e) (call "metric", [("noise_level", .num 1), ("k", .int 2)]) 1 zero_le_one .inf (.int 2) 1
  (by kw) (by kw) rfl (by kw) (.one [0, 1, 3, 7])
example := C85_cross_entropy (b := .e) (call "metric", [("noise_level", .num 1), ("k", .int 2)]) 1 zero_le_one .inf (.int 2) 1
  (by kw) (by kw) rfl (by kw) (.one [0, 1, 3, 7]) (.one [2, 1, 0])
example := C85_entropy_negative (b := .e) (call "metric", [("noise_level", .num (-1)), ("k", .int 2)]) (-1) (by norm_num) .inf (.int 2) 1
  (by kw) (by kw) rfl (by kw) [.reals [0, 1, 3, 7]]
instance : MeasureTheory.IsProbabilityMeasure gaussDraws := by unfold gaussDraws; infer_instance

example (n : Nat) := C85_noise_variance stdDraws_gauss (fun ω => { demo with draw := fun i t j => ω (i, t, j) }) (fun _ _ _ _ => rfl) 1 (.one [0, 1, 3, 7])
  2 0 ⟨by simp [assure2d], by simp [assure2d]⟩ 2 n

end Verif
