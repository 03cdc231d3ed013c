import Verif.Props.Reversal
import Verif.Props.EndToEndEx

/-!
# C97: concrete calls that meet the hypotheses
-/

namespace Verif

open Spec

/-- negation inverts the order -/
theorem revEx_neg : KeepsOrInverts (fun x => -x) := .inr fun x y h => by simpa using h

theorem revEx_x : TieFree ([0, 3, 1, 2, 5, 4] : List ℝ) 3 1 := by
  intro w hw
  simp [delayVectors, List.range_succ] at hw
  rcases hw with rfl | rfl | rfl | rfl <;> norm_num

theorem revEx_y : TieFree ([2, 1, 7, 4, 0, 9] : List ℝ) 3 1 := by
  intro w hw
  simp [delayVectors, List.range_succ] at hw
  rcases hw with rfl | rfl | rfl | rfl <;> norm_num

example := C97_entropy (d := 3) (s := 1) (b := .e) (call "ordinal", [("embedding_dim", .int 3)]) trivial [0, 3, 1, 2, 5, 4] false (by kw) (by kw) (by kw)
  (by norm_num) le_rfl (by simp) revEx_x
example := C97_joint (d := 3) (s := 1) (b := .e) (call "ordinal", [("embedding_dim", .int 3)]) trivial [[0, 3, 1, 2, 5, 4], [2, 1, 7, 4, 0, 9]] 6 false
  (by kw) (by kw) (by kw) (by norm_num) (by norm_num) le_rfl (by simp) (by simp) (by norm_num) (by simp [revEx_x, revEx_y])
example := C97_mi (d := 3) (s := 1) (b := .e) (cond := .absent) (call "ordinal", [("embedding_dim", .int 3)]) trivial rfl (by kw)
  [0, 3, 1, 2, 5, 4] [2, 1, 7, 4, 0, 9] false (by kw) (by kw) (by kw) (by norm_num) le_rfl rfl (by simp) (by simp) revEx_x revEx_y
example := C97_cmi (d := 3) (s := 1) (b := .e) (call "ordinal", [("embedding_dim", .int 3)]) trivial (by kw)
  [0, 3, 1, 2, 5, 4] [2, 1, 7, 4, 0, 9] [0, 3, 1, 2, 5, 4] false (by kw) (by kw) (by kw) (by norm_num) le_rfl rfl rfl (by simp) (by simp) revEx_x revEx_y revEx_x
example := C97_te (d := 3) (s := 1) (l := 1) (k := 1) (b := .e) (cond := .absent) (call "ordinal", [("embedding_dim", .int 3)]) trivial rfl
  ⟨by kw, by kw, by kw, by kw, by kw⟩ false (by kw) (by kw) (by norm_num) (by norm_num) le_rfl one_pos one_pos
  [0, 3, 1, 2, 5, 4] [2, 1, 7, 4, 0, 9] rfl (by simp) (by simp) revEx_x revEx_y
example := C97_cte (d := 3) (s := 1) (l := 1) (k := 1) (c := 1) (b := .e) (call "ordinal", [("embedding_dim", .int 3)]) trivial
  ⟨by kw, by kw, by kw, by kw, by kw⟩ (by kw) false (by kw) (by kw) (by norm_num) (by norm_num) le_rfl one_pos one_pos one_pos
  [0, 3, 1, 2, 5, 4] [2, 1, 7, 4, 0, 9] [0, 3, 1, 2, 5, 4] rfl rfl (by simp) (by simp) revEx_x revEx_y revEx_x

end Verif
