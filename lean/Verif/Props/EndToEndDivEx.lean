import Verif.Props.EndToEndDiv
import Verif.Props.EndToEndEx

/-!
# C83: concrete calls that meet the hypotheses of the theorems about the composite measures
-/

namespace Verif

open Spec

/-- results of the Jensen–Shannon divergence outside the modelled fragment -/
noncomputable def demoOj : Est → List PyData → Except Exc ℝ := fun _ _ => .error .valueError

example := C83_kld_difference demo (.ints [1, 1, 2]) (.ints [2, 1]) (.str "mm") .absent (kwList [])
example := C83_kld_without_noise (W := demo) (a := .str "mm") (cond := .absent) (kw := kwList []) (.ints [1, 1, 2]) (.ints [2, 1]) (f := .millerMadow)
  ⟨_, rfl, by decide +kernel⟩ (by decide)
example := (C83_kld (b := .num 2) (call "discrete", [("base", .int 2)]) (by norm_num [Base.Std]) [1, 1, 2] [2, 1] (by simp) (by simp)).2 (by simp)
example := C83_kld_self (f := .millerMadow) (.inr rfl) (b := .e) (call "miller_madow", []) trivial [1, 1, 2] [1, 2, 1] (by simp)
  (by rw [List.perm_cons]; exact List.Perm.swap _ _ _)
example := C83_kld_bayes (b := .e) (call "bayes", [("alpha", .num (1 / 2))]) trivial [1, 1, 2] [2, 1, 3] (by simp) (by simp) (1 / 2) (by norm_num) (by kw) (by kw)
example := C83_kld_inconsistent (f := .zhang) (by simp) (b := .e) (call "zhang", []) [1, 1, 2] [2, 1] (by simp) (by simp)
example := C83_kld_box (b := .e) (call "kernel", [("bandwidth", .num 1), ("kernel", .str "box")]) trivial (.one [0, 1]) (.one [0, 1, 3])
  (KVar.wf_one _) (KVar.wf_one _) rfl (by simp [KVar.len]) (by simp [KVar.len]) 1 one_pos
  (by simp [KVar.samples, assure2d, InBox]) 1 (by kw) (by kw) (by kw)
example := C83_kld_metric (b := .e) (call "metric", [("k", .int 2)]) (.one [0, 1, 3]) (.one [0, 1, 3, 7]) (.int 2) 1 (1 / 10 ^ 10) .inf
  (by kw) (by simp [kwOr, kwList, List.lookup, PyVal.toInt]) (by kw) (by kw)
example := C83_jsd (oj := demoOj) (b := .e) (call "discrete", []) trivial [[1, 1, 2], [2, 1], [5]] (by simp) (by simp)
example := C83_jsd_shrink (oj := demoOj) (b := .e) (call "shrink", []) trivial [[1, 1, 2], [2, 1], [5]] (by simp) (by simp)
example := C83_jsd_bayes (oj := demoOj) (b := .e) (call "bayes", [("alpha", .num (1 / 2))]) trivial [[1, 1, 2], [2, 1], [5]] (by simp) (by simp)
  (1 / 2) (by norm_num) (by kw) (by kw)
example := C83_jsd_box (oj := demoOj) (b := .e) (call "kernel", [("bandwidth", .num 1), ("kernel", .str "box")]) trivial [.one [0, 1], .one [5, 7, 1]] 1
  ⟨by simp, .inl ⟨rfl, by simp⟩, by simp [KVar.wf_one], by simp [KVar.len]⟩ 1 one_pos 1 (by kw) (by kw) (by kw)
example := C83_jsd_symmetric (oj := demoOj) (f := .shrink) (.inr (.inl rfl)) (b := .e) (call "shrink", []) trivial [[1, 1, 2], [2, 1]] [[2, 1], [1, 1, 2]]
  (List.Perm.swap _ _ _) (by simp) (by simp)
/-- no approach, an estimator that the Jensen–Shannon divergence does not support, a tuple -/
example := (C83_value_error demo demoOj [.ints [1]] (.ints [1]) (.ints [1]) (.str "metric") .absent (kwList [])).1
example := (C83_value_error demo demoOj [.intTup [[1], [2]]] (.ints [1]) (.ints [1]) (.str "discrete") .absent (kwList [])).2.2.2 ⟨[[1], [2]], by simp⟩
/-- `embedding_dim` is missing -/
example := (C83_type_error (W := demo) (a := .str "ordinal") (cond := .absent) (kw := kwList []) demoOj [.reals [1, 2]] (.reals [1, 2]) (.reals [1, 2]) .ordinal
  ⟨_, rfl, by decide +kernel⟩ (by kw) (.inl ⟨"embedding_dim", by decide +kernel, by kw⟩)).2.1 (by simp) (by simp) (by simp [PyData.isArrayLike])
example := C83_jsd_no_data (W := demo) (a := .str "kernel") (cond := .absent) (kw := kwList []) demoOj (f := .kernel) (by simp) ⟨_, rfl, by decide +kernel⟩
example := C83_spelling (W := demo) (cond := .absent) (kw := kwList []) demoOj [.ints [1, 2]] (.ints [1]) (.ints [1]) (.str "symbolic") (.str "ORDINAL") .ordinal
  ⟨_, rfl, by decide +kernel⟩ ⟨_, rfl, by decide +kernel⟩

end Verif
