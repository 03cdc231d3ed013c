import Verif.Props.EndToEndVec4
import Verif.Props.EndToEndVecEx

/-!
# C90: concrete calls that meet the hypotheses of the theorems of `Props/EndToEndVec4.lean`
-/

namespace Verif

open Spec

/-- an array of two-component vectors next to a series of numbers -/
theorem dMixed : VectorData [.imat 2 dSrc, .ints dDst] [dSrc, dDst.map (fun x => [x])] :=
  .cons ⟨2, dSrc_vectors⟩ (.cons ⟨1, dDst_vectors⟩ .nil)

example := C90_mi_bias .zhang (b := .e) (cond := .absent) (call "zhang", []) trivial rfl ⟨by kw, by kw⟩ dMixed 5 (by norm_num) (by simp)
  (by simp [dSrc, dDst])
example := C90_mi_bias .shrink (b := .num 2) (cond := .absent) (call "shrink", [("base", .int 2)]) (by norm_num [Base.Valid]) rfl ⟨by kw, by kw⟩ dMixed 5
  (by norm_num) (by simp) (by simp [dSrc, dDst])
example := C90_mi_bayes (.num (1 / 2)) none (.bayesNum (by norm_num)) (b := .e) (cond := .absent) (call "bayes", [("alpha", .num (1 / 2))]) trivial (by kw)
  (by kw) rfl ⟨by kw, by kw⟩ dMixed 5 (by norm_num) (by simp) (by simp [dSrc, dDst])
example := C90_mi_ansb (b := .e) (cond := .absent) (call "ansb", []) trivial (1 / 10) (by norm_num) (by kw) rfl ⟨by kw, by kw⟩ dMixed 5 (by norm_num)
  (by simp) (by simp [dSrc, dDst])
example := C90_mi_nsb (b := .e) (cond := .absent) (call "nsb", []) trivial none (by kw) (by simp) rfl ⟨by kw, by kw⟩ dMixed 5 (by norm_num) (by simp)
  (by simp [dSrc, dDst])
example := C90_cmi_bias .grassberger (b := .e) (call "grassberger", []) trivial ⟨by kw, by kw⟩ dMixed dSrc_vectors (by decide) (by simp)
  (by simp [dSrc, dDst])
example := C90_cmi_bayes (.num (1 / 2)) none (.bayesNum (by norm_num)) (b := .e) (call "bayes", [("alpha", .num (1 / 2))]) trivial (by kw)
  (by kw) ⟨by kw, by kw⟩ dMixed dSrc_vectors (by decide) (by simp) (by simp [dSrc, dDst])
example := C90_cmi_ansb (b := .e) (call "ansb", []) trivial (1 / 10) (by norm_num) (by kw) ⟨by kw, by kw⟩ dMixed dSrc_vectors (by decide)
  (by simp) (by simp [dSrc, dDst])
example := C90_cmi_nsb (b := .e) (call "nsb", []) trivial none (by kw) (by simp) ⟨by kw, by kw⟩ dMixed dSrc_vectors (by decide) (by simp)
  (by simp [dSrc, dDst])
example := C90_mi_normalize .zhang (b := .e) (cond := .absent) (call "zhang", [("normalize", .bool true)]) rfl (by kw) (by kw) dMixed 5 (by simp)
  (by simp [dSrc, dDst]) ⟨.imat 2 dSrc, by simp, rfl⟩
example := C90_cmi_normalize .zhang (b := .e) (call "zhang", [("normalize", .bool true)]) (by kw) (by kw) dMixed dDst_vectors
  (by simp [dSrc, dDst]) (.inl rfl)
example := C90_cmi_bias_tuple .zhang (b := .e) (call "zhang", []) ⟨by kw, by kw⟩ dMixed 5 (by simp) (by simp [dSrc, dDst]) [dDst, dDst] (by simp)

/-- two series of two samples -/
theorem dTwo : VectorData [.ints [0, 1], .ints [1, 1]] [[[0], [1]], [[1], [1]]] := .cons ⟨1, .one [0, 1]⟩ (.cons ⟨1, .one [1, 1]⟩ .nil)

example := C90_cmi_bias_tuple_square .zhang (b := .e) (call "zhang", []) trivial ⟨by kw, by kw⟩ dTwo [[0, 1], [0, 0]] (by simp) (by simp) (by simp)
  (by simp)
example := C90_cmi_vectors (b := .e) (call "discrete", []) trivial (by kw) dSrc_vectors dDst_vectors (.inl rfl) dCond_tuple rfl rfl (by decide) (by decide)
example := C90_cmi_miller_madow_vectors (b := .e) (call "mm", []) trivial (by kw) dSrc_vectors dDst_vectors (.inl rfl) (z := dDst) rfl rfl (by decide)
  (by decide)

end Verif
