import Verif.Props.EndToEndVec3
import Verif.Props.EndToEndEx

/-!
# C90: concrete calls that meet the hypotheses of the theorems about two-dimensional arrays and joint conditions
-/

namespace Verif

open Spec

/-- a source of two-component vectors -/
def dSrc : List (List Int) := [[0, 1], [1, 1], [0, 0], [1, 0], [0, 1]]

/-- a one-dimensional target -/
def dDst : List Int := [0, 1, 1, 0, 1]

theorem dSrc_vectors : IntVectors (.imat 2 dSrc) 2 dSrc := .two 2 dSrc (by norm_num) (by decide)
theorem dDst_vectors : IntVectors (.ints dDst) 1 (dDst.map (fun x => [x])) := .one dDst
theorem dCond_tuple : Condition (.intTup [dDst, [1, 1, 1, 0, 0]]) (rows 5 [dDst, [1, 1, 1, 0, 0]]) := .tuple 5 _ (by simp) (by simp [dDst])

theorem dSrc_real : RealVectors (.imat 2 dSrc) 2 (dSrc.map (fun r => r.map (fun x : Int => (x : ℝ)))) := .int dSrc_vectors
theorem dDst_real : RealVectors (.ints dDst) 1 ((dDst.map (fun x => [x])).map (fun r => r.map (fun x : Int => (x : ℝ)))) := .int dDst_vectors

/-- a real array of two-component vectors -/
theorem rSrc_real : RealVectors (.mat ⟨2, [[0, 1 / 2], [1, 3], [2, 1], [5, 0]]⟩) 2 [[0, 1 / 2], [1, 3], [2, 1], [5, 0]] :=
  .two 2 _ (by norm_num) (by simp)

example := C90_te (b := .e) (cond := .absent) (call "discrete", [("src_hist_len", .int 2)]) trivial rfl demoHistory (by norm_num) (by norm_num)
  (by norm_num) dSrc_vectors dDst_vectors (by decide) (by decide) (by norm_num [dDst])
example := C90_te_miller_madow (b := .e) (cond := .absent) (call "mm", [("src_hist_len", .int 2)]) trivial rfl demoHistory (by norm_num) (by norm_num)
  (by norm_num) dSrc_vectors dDst_vectors (by decide) (by decide) (by norm_num [dDst])
example := C90_te_bias .zhang (b := .e) (cond := .absent) (call "zhang", [("src_hist_len", .int 2)]) trivial rfl demoHistory (by norm_num) (by norm_num)
  (by norm_num) dSrc_vectors dDst_vectors (by decide) (by decide)
example := C90_te_bayes (.num (1 / 2)) none (.bayesNum (by norm_num)) (b := .e) (cond := .absent)
  (call "bayes", [("alpha", .num (1 / 2)), ("src_hist_len", .int 2)]) trivial (by kw) (by kw) rfl ⟨by kw, by kw, by kw, by kw, by kw⟩
  (l := 2) (k := 1) (s := 1) (by norm_num) (by norm_num) (by norm_num) dSrc_vectors dDst_vectors (by decide) (by decide)
example := C90_te_ansb (b := .e) (cond := .absent) (call "ansb", [("src_hist_len", .int 2)]) trivial (1 / 10) (by norm_num) (by kw) rfl demoHistory
  (by norm_num) (by norm_num) (by norm_num) dSrc_vectors dDst_vectors (by decide) (by decide)
example := C90_te_nsb (b := .e) (cond := .absent) (call "nsb", [("src_hist_len", .int 2)]) trivial none (by kw) (by simp) rfl demoHistory
  (by norm_num) (by norm_num) (by norm_num) dSrc_vectors dDst_vectors (by decide) (by decide)

/-- all history lengths 1 -/
theorem hist1 (l : List (String × PyVal)) (h1 : l.lookup "prop_time" = none) (h2 : l.lookup "step_size" = none) (h3 : l.lookup "src_hist_len" = none)
    (h4 : l.lookup "dest_hist_len" = none) (h5 : l.lookup "offset" = none) : History (kwList l) 1 1 1 :=
  ⟨by simp [kwOr, kwList, h3], by simp [kwOr, kwList, h4], by simp [kwOr, kwList, h2], by simp [kwOr, kwList, h1], by simp [kwOr, kwList, h5]⟩

example := C90_te_box (b := .e) (cond := .absent) (call "kernel", [("bandwidth", .num 1), ("kernel", .str "box")]) trivial rfl
  (hist1 _ rfl rfl rfl rfl rfl) one_pos one_pos one_pos rSrc_real rSrc_real (by simp) rfl (by simp [numRows]) 1 one_pos 1 (by kw) (by kw) (by kw)
example := C90_te_metric (b := .e) (cond := .absent) (call "ksg", [("k", .int 1), ("noise_level", .int 0)])
  (call "ksg", [("k", .int 1), ("noise_level", .int 0)]) trivial rfl (hist1 _ rfl rfl rfl rfl rfl) ⟨by kw, by kw⟩ (by kw) (by kw) one_pos one_pos one_pos
  rSrc_real rSrc_real (by simp) rfl .inf rfl 1 one_pos 1 (.inl rfl) (by kw) (by kw) (by kw) (by kw) (by kw) (by kw)
example := C90_te_renyi (b := .e) (cond := .absent) (call "renyi", [("alpha", .num 2), ("k", .int 1), ("noise_level", .int 0)])
  (call "renyi", [("alpha", .num 2), ("k", .int 1), ("noise_level", .int 0)]) rfl (hist1 _ rfl rfl rfl rfl rfl) ⟨by kw, by kw⟩ (by kw) (by kw)
  one_pos one_pos one_pos dSrc_real dDst_real (by simp [dSrc]) (by simp [dSrc, dDst]) (.int 1) (.num 2) (by kw) (by kw) (by kw) (by kw)
example := C90_te_ordinal (b := .e) (cond := .absent) (call "ordinal", [("embedding_dim", .int 2)]) rfl (hist1 _ rfl rfl rfl rfl rfl) 2 false (by kw)
  (by kw) dSrc_real dDst_real (by simp [dSrc, dDst]) (.inl rfl)

example := C90_cte (b := .e) (c := 1) (call "discrete", [("src_hist_len", .int 2)]) trivial demoHistory (by kw) one_pos (by norm_num) one_pos one_pos
  dSrc_vectors dDst_vectors dCond_tuple (by decide) (by decide) (by decide) (by norm_num [dDst])
example := C90_cte (b := .e) (c := 1) (call "discrete", [("src_hist_len", .int 2)]) trivial demoHistory (by kw) one_pos (by norm_num) one_pos one_pos
  dSrc_vectors dDst_vectors (.array dSrc_vectors) (by decide) (by decide) (by decide) (by norm_num [dDst])
example := C90_cte_miller_madow (b := .e) (c := 1) (call "mm", [("src_hist_len", .int 2)]) trivial demoHistory (by kw) one_pos (by norm_num) one_pos
  one_pos dSrc_vectors dDst_vectors dSrc_vectors (by decide) (by decide) (by decide) (by norm_num [dDst])
example := C90_cte_bias .shrink (b := .e) (c := 1) (call "shrink", [("src_hist_len", .int 2)]) trivial demoHistory (by kw) one_pos (by norm_num) one_pos
  one_pos dSrc_vectors dDst_vectors dSrc_vectors (by decide) (by decide) (by decide)
example := C90_cte_ansb (b := .e) (c := 1) (call "ansb", [("src_hist_len", .int 2)]) trivial (1 / 10) (by norm_num) (by kw) demoHistory (by kw) one_pos
  (by norm_num) one_pos one_pos dSrc_vectors dDst_vectors dSrc_vectors (by decide) (by decide) (by decide)
example := C90_cte_nsb (b := .e) (c := 1) (call "nsb", [("src_hist_len", .int 2)]) trivial none (by kw) (by simp) demoHistory (by kw) one_pos
  (by norm_num) one_pos one_pos dSrc_vectors dDst_vectors dSrc_vectors (by decide) (by decide) (by decide)
example := C90_cte_box (b := .e) (c := 1) (call "kernel", [("bandwidth", .num 1), ("kernel", .str "box")]) trivial
  (hist1 _ rfl rfl rfl rfl rfl) (by kw) one_pos one_pos one_pos one_pos rSrc_real rSrc_real rSrc_real (by simp) rfl rfl (by simp [numRows]) 1 one_pos 1
  (by kw) (by kw) (by kw)
example := C90_cte_metric (b := .e) (c := 1) (call "ksg", [("k", .int 1), ("noise_level", .int 0)])
  (call "ksg", [("k", .int 1), ("noise_level", .int 0)]) trivial (hist1 _ rfl rfl rfl rfl rfl) (by kw) one_pos one_pos one_pos one_pos ⟨by kw, by kw⟩
  (by kw) (by kw) rSrc_real rSrc_real rSrc_real (by simp) rfl rfl .inf rfl 1 one_pos (by simp [numRows]) 1 (.inl rfl) (by kw) (by kw) (by kw) (by kw)
  (by kw) (by kw)
example := C90_cte_tsallis (b := .e) (c := 1) (call "tsallis", [("q", .num 2), ("k", .int 1), ("noise_level", .int 0)])
  (call "tsallis", [("q", .num 2), ("k", .int 1), ("noise_level", .int 0)]) (hist1 _ rfl rfl rfl rfl rfl) (by kw) one_pos one_pos one_pos one_pos
  ⟨by kw, by kw⟩ (by kw) (by kw) rSrc_real rSrc_real rSrc_real (by simp) rfl rfl (.int 1) (.num 2) (by kw) (by kw) (by kw) (by kw)
example := C90_cte_ordinal (b := .e) (c := 1) (call "ordinal", [("embedding_dim", .int 2)]) (hist1 _ rfl rfl rfl rfl rfl) (by kw) 2 false (by kw)
  (by kw) dDst_real dDst_real dSrc_real rfl (by simp [dSrc, dDst]) (.inr (.inr rfl))
example := C90_cte_miller_madow_tuple (b := .e) (c := 1) (call "mm", [("src_hist_len", .int 2)]) demoHistory (by kw) dSrc_vectors dDst_vectors
  [dDst, dDst] (by decide)

example := C90_mi_two (b := .e) (cond := .absent) (call "discrete", []) trivial rfl (by kw) 2 1 dSrc (dDst.map (fun x => [x])) (by decide) rfl
example := C90_mi_miller_madow (b := .num 2) (cond := .absent) (call "mm", [("base", .int 2)]) (by norm_num [Base.Valid]) rfl (by kw)
  [(2, dSrc), (2, dSrc), (1, dDst.map (fun x => [x]))] 5 (by norm_num) (by simp) (by decide)
example := C90_mi_mixed false (b := .e) (cond := .absent) (call "discrete", []) rfl (by kw) 2 dDst dSrc (by decide) rfl
example := C90_cmi (b := .e) (call "discrete", []) trivial (by kw) dDst [3, 3, 4, 4, 3] dCond_tuple rfl rfl (by decide) (by decide)
example := C90_cmi (b := .e) (call "discrete", []) trivial (by kw) dDst [3, 3, 4, 4, 3] (.array dSrc_vectors) rfl rfl (by decide) (by decide)
example := C90_cmi_miller_madow_joint (b := .e) (call "mm", []) (by kw) [dDst, [3, 3, 4, 4, 3]] (by simp) (.intTup [dDst, dDst]) (.inl ⟨_, rfl⟩)

end Verif
