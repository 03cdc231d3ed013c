import Verif.Props.Robust
import Verif.Props.ReversalEx

/-!
# C100: concrete calls that meet the hypotheses
-/

namespace Verif

open Spec

example : changed [1, 2, 2, 3] [1, 2, 7, 3] = 1 := by decide
example := C100_entropy (b := .e) (call "discrete", []) trivial [1, 2, 2, 3] [1, 2, 7, 3] (by simp) rfl
example := C100_entropy_miller_madow (b := .e) (call "miller_madow", []) trivial [1, 2, 2, 3] [1, 2, 7, 3] (by simp) rfl
example := C100_joint_entropy (b := .e) (call "discrete", []) trivial [[1, 2, 2], [0, 0, 1]] [[1, 2, 2], [0, 5, 1]] 3 (by norm_num) (by simp) (by simp)
  (by simp) (by simp)
example := C100_mi (b := .e) (cond := .absent) (call "discrete", []) trivial rfl (by kw) [1, 2, 2, 3] [0, 0, 1, 1] [1, 2, 7, 3] [0, 0, 1, 1]
  (by simp) rfl rfl rfl (by simp)
example := C100_mi_many (b := .e) (cond := .absent) (call "discrete", []) trivial rfl (by kw) [[1, 2, 2], [0, 0, 1], [4, 5, 6]] [[1, 2, 2], [0, 5, 1], [4, 5, 6]]
  3 (by norm_num) (by simp) rfl (by simp) (by simp) (by norm_num) (by simp [IsConst]) (by simp [IsConst])
example := C100_three_variables_jump (b := .e) (cond := .absent) (call "discrete", []) trivial rfl (by kw) [0, 1, 0, 1] (by simp [IsConst]) (by norm_num)
example := C100_cmi (b := .e) (call "discrete", []) trivial (by kw) [1, 2, 2, 3] [0, 0, 1, 1] [5, 5, 6, 6] [1, 2, 7, 3] [0, 0, 1, 1] [5, 6, 6, 6]
  (by simp) rfl rfl rfl rfl rfl (by simp)
example := C100_te (l := 1) (k := 2) (s := 1) (b := .e) (cond := .absent) (call "discrete", [("dest_hist_len", .int 2)]) trivial rfl
  ⟨by kw, by kw, by kw, by kw, by kw⟩ one_pos one_pos two_pos [1, 2, 2, 3, 1] [0, 0, 1, 1, 0] [1, 2, 7, 3, 1] [0, 0, 1, 1, 0] (by simp) rfl rfl rfl (by simp)

theorem robEx_x' : TieFree ([0, 3, 1000, 2, 5, 4] : List ℝ) 3 1 := by
  intro w hw
  simp [delayVectors, List.range_succ] at hw
  rcases hw with rfl | rfl | rfl | rfl <;> norm_num

example := C100_ordinal_entropy (d := 3) (s := 1) (b := .e) (call "ordinal", [("embedding_dim", .int 3)]) trivial [0, 3, 1, 2, 5, 4]
  [0, 3, 1000, 2, 5, 4] false (by kw) (by kw) (by kw) (by norm_num) le_rfl rfl (by simp) revEx_x robEx_x'
example := C100_ordinal_mi (d := 3) (s := 1) (b := .e) (cond := .absent) (call "ordinal", [("embedding_dim", .int 3)]) trivial rfl (by kw)
  [0, 3, 1, 2, 5, 4] [2, 1, 7, 4, 0, 9] [0, 3, 1000, 2, 5, 4] [2, 1, 7, 4, 0, 9] false (by kw) (by kw) (by kw) (by norm_num) le_rfl rfl rfl rfl
  (by simp) (by simp) revEx_x revEx_y robEx_x' revEx_y
example := C100_ordinal_te (d := 3) (s := 1) (l := 1) (k := 1) (b := .e) (cond := .absent) (call "ordinal", [("embedding_dim", .int 3)]) trivial rfl
  ⟨by kw, by kw, by kw, by kw, by kw⟩ false (by kw) (by kw) (by norm_num) (by norm_num) le_rfl one_pos one_pos
  [0, 3, 1, 2, 5, 4] [2, 1, 7, 4, 0, 9] [0, 3, 1000, 2, 5, 4] [2, 1, 7, 4, 0, 9] rfl rfl rfl (by simp) (by simp) revEx_x revEx_y robEx_x' revEx_y

end Verif
