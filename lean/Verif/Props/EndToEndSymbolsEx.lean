import Verif.Props.EndToEndNormalize
import Verif.Props.EndToEndSymEx

/-!
# C93: concrete calls that meet the hypotheses
-/

namespace Verif

open Spec

/-- 1 ↦ 0.5, 2 ↦ -3, 0 ↦ 7.25 -/
theorem sybA : Symbols idA (.reals [1 / 2, 1 / 2, -3, 29 / 4]) :=
  ⟨fun x => if x = 1 then 1 / 2 else if x = 2 then -3 else 29 / 4, by norm_num [idA], by norm_num [idA, PyData.toSeries]⟩
theorem sybB : Symbols idB (.ints [9, 0, 9, 0]) :=
  ⟨fun x => if x = 0 then 9 else 0, by norm_num [idB], by norm_num [idB, PyData.toSeries, asReals]⟩
theorem sybC : Symbols idC (.reals [-1, -1, 2, 2]) :=
  ⟨fun x => if x = 7 then -1 else 2, by norm_num [idC], by norm_num [idC, PyData.toSeries]⟩
theorem sybR : HasReals [.reals [1 / 2, 1 / 2, -3, 29 / 4], .ints [9, 0, 9, 0]] := ⟨_, List.mem_cons_self ..⟩
theorem sybAB : List.Forall₂ Symbols [idA, idB] [.reals [1 / 2, 1 / 2, -3, 29 / 4], .ints [9, 0, 9, 0]] := .cons sybA (.cons sybB .nil)
theorem sybRC : HasReals (.reals [-1, -1, 2, 2] :: [.reals [1 / 2, 1 / 2, -3, 29 / 4], .ints [9, 0, 9, 0]]) := ⟨_, List.mem_cons_self ..⟩
theorem sybV : ∀ c ∈ [idC, idA, idB], Varies c := by
  intro c hc
  simp only [List.mem_cons, List.not_mem_nil, or_false] at hc
  rcases hc with rfl | rfl | rfl
  · exact ⟨7, by simp [idC], 8, by simp [idC], by norm_num⟩
  · exact ⟨1, by simp [idA], 2, by simp [idA], by norm_num⟩
  · exact ⟨0, by decide, 3, by decide, by norm_num⟩

example := (C93_entropy .zhang (by simp [simpleFams]) (b := .e) (call "zhang", []) trivial 4 (by norm_num)).1 idA _ rfl sybA
example := (C93_entropy .discrete (by simp [simpleFams]) (b := .num 2) (call "discrete", [("base", .int 2)]) (by norm_num [Base.Std]) 4
  (by norm_num)).2 [idA, idC] [_, _] (by simp) (by simp [idA, idC]) (.cons sybA (.cons sybC .nil))
example := (C93_entropy_bayes (.num (1 / 2)) none idBayes (b := .e) (call "bayes", [("alpha", .num (1 / 2))]) trivial (by kw) (by kwk) 4
  (by norm_num)).1 idA _ rfl sybA
example := (C93_entropy_ansb (b := .e) (call "ansb", []) trivial (by kw) 4 (by norm_num)).1 idA _ rfl sybA
example := (C93_entropy_nsb (b := .e) (call "nsb", []) trivial none (by kwk) (by simp) 4 (by norm_num)).1 idA _ rfl sybA
example := C93_entropy_value (b := .num 2) (call "discrete", [("base", .int 2)]) (by norm_num [Base.Std]) [1 / 2, 1 / 2, -3, 29 / 4] (by simp)

example := C93_mi (b := .num 2) (cond := .none) (call "discrete", [("base", .int 2)]) (by norm_num [Base.Std]) rfl (by kw) sybAB sybR (N := 4)
  (by norm_num) (by simp) (by simp [idA, idB]) (by norm_num)
example := C93_mi_miller_madow (b := .e) (cond := .absent) (call "mm", []) trivial rfl (by kw) sybAB sybR (N := 4) (by norm_num) (by simp)
  (by simp [idA, idB]) (by norm_num)
example := C93_mi_bias .chaoShen (b := .e) (cond := .absent) (call "chao_shen", []) trivial rfl ⟨by kw, by kw⟩ sybAB sybR (N := 4) (by norm_num)
  (by simp) (by simp [idA, idB])
example := C93_mi_bayes (.num (1 / 2)) none idBayes (b := .e) (cond := .absent) (call "bayes", [("alpha", .num (1 / 2))]) trivial rfl ⟨by kw, by kw⟩
  (by kw) (by kw) sybAB sybR (N := 4) (by norm_num) (by simp) (by simp [idA, idB])
example := C93_mi_ansb (b := .e) (cond := .absent) (call "ansb", []) trivial rfl ⟨by kw, by kw⟩ (1 / 10) (by norm_num) (by kw) sybAB sybR (N := 4)
  (by norm_num) (by simp) (by simp [idA, idB])
example := C93_mi_nsb (b := .e) (cond := .absent) (call "nsb", []) trivial rfl ⟨by kw, by kw⟩ none (by kwk) (by simp) sybAB sybR (N := 4) (by norm_num)
  (by simp) (by simp [idA, idB])

example := C93_cmi (b := .e) (call "discrete", []) trivial (by kw) sybAB sybC sybRC (by simp [idC]) (by simp) (by simp [idA, idB, idC]) (by norm_num [idC])
example := C93_cmi_miller_madow (b := .e) (call "mm", []) trivial (by kw) sybAB sybC sybRC (by simp [idC]) (by simp) (by simp [idA, idB, idC])
  (by norm_num [idC])
example := C93_cmi_bias .bonachela (b := .e) (call "bonachela", []) trivial ⟨by kw, by kw⟩ sybAB sybC sybRC (by simp [idC]) (by simp)
  (by simp [idA, idB, idC])
example := C93_cmi_bayes (.num (1 / 2)) none idBayes (b := .e) (call "bayes", [("alpha", .num (1 / 2))]) trivial ⟨by kw, by kw⟩ (by kw) (by kw)
  sybAB sybC sybRC (by simp [idC]) (by simp) (by simp [idA, idB, idC])
example := C93_cmi_ansb (b := .e) (call "ansb", []) trivial ⟨by kw, by kw⟩ (1 / 10) (by norm_num) (by kw) sybAB sybC sybRC (by simp [idC]) (by simp)
  (by simp [idA, idB, idC])
example := C93_cmi_nsb (b := .e) (call "nsb", []) trivial ⟨by kw, by kw⟩ none (by kwk) (by simp) sybAB sybC sybRC (by simp [idC]) (by simp)
  (by simp [idA, idB, idC])

example := C93_te (b := .e) (cond := .absent) (call "discrete", [("src_hist_len", .int 2)]) trivial rfl demoHistory (by norm_num) (by norm_num) (by norm_num)
  sybA sybB sybR (by simp [idA]) rfl (by norm_num [idB])
example := C93_te_miller_madow (b := .e) (cond := .absent) (call "mm", [("src_hist_len", .int 2)]) trivial rfl demoHistory (by norm_num) (by norm_num)
  (by norm_num) sybA sybB sybR (by simp [idA]) rfl (by norm_num [idB])
example := C93_te_bias .grassberger (b := .e) (cond := .absent) (call "grassberger", [("src_hist_len", .int 2)]) trivial rfl demoHistory (by norm_num)
  (by norm_num) (by norm_num) sybA sybB sybR (by simp [idA]) rfl
example := C93_te_bayes (.num (1 / 2)) none idBayes (b := .e) (cond := .absent) (call "bayes", [("alpha", .num (1 / 2)), ("src_hist_len", .int 2)]) trivial
  (by kw) (by kw) rfl (l := 2) (k := 1) (s := 1) ⟨by kw, by kw, by kw, by kw, by kw⟩ (by norm_num) (by norm_num) (by norm_num) sybA sybB sybR
  (by simp [idA]) rfl
example := C93_te_ansb (b := .e) (cond := .absent) (call "ansb", [("src_hist_len", .int 2)]) trivial (1 / 10) (by norm_num) (by kw) rfl demoHistory
  (by norm_num) (by norm_num) (by norm_num) sybA sybB sybR (by simp [idA]) rfl
example := C93_te_nsb (b := .e) (cond := .absent) (call "nsb", [("src_hist_len", .int 2)]) trivial none (by kwk) (by simp) rfl demoHistory
  (by norm_num) (by norm_num) (by norm_num) sybA sybB sybR (by simp [idA]) rfl

example := C93_cte (b := .e) (c := 1) (call "discrete", [("src_hist_len", .int 2)]) trivial demoHistory (by kw) (by norm_num) (by norm_num) (by norm_num)
  (by norm_num) sybA sybB sybC sybRC (by simp [idA]) rfl rfl (by norm_num [idB])
example := C93_cte_miller_madow (b := .e) (c := 1) (call "mm", [("src_hist_len", .int 2)]) trivial demoHistory (by kw) (by norm_num) (by norm_num)
  (by norm_num) (by norm_num) sybA sybB sybC sybRC (by simp [idA]) rfl rfl (by norm_num [idB])
example := C93_cte_bias .grassberger (b := .e) (c := 1) (call "grassberger", [("src_hist_len", .int 2)]) trivial demoHistory (by kw) (by norm_num)
  (by norm_num) (by norm_num) (by norm_num) sybA sybB sybC sybRC (by simp [idA]) rfl rfl
example := C93_cte_bayes (.num (1 / 2)) none idBayes (b := .e) (c := 1) (call "bayes", [("alpha", .num (1 / 2)), ("src_hist_len", .int 2)]) trivial
  (by kw) (by kw) (l := 2) (k := 1) (s := 1) ⟨by kw, by kw, by kw, by kw, by kw⟩ (by kw) (by norm_num) (by norm_num) (by norm_num) (by norm_num)
  sybA sybB sybC sybRC (by simp [idA]) rfl rfl
example := C93_cte_ansb (b := .e) (c := 1) (call "ansb", [("src_hist_len", .int 2)]) trivial (1 / 10) (by norm_num) (by kw) demoHistory (by kw)
  (by norm_num) (by norm_num) (by norm_num) (by norm_num) sybA sybB sybC sybRC (by simp [idA]) rfl rfl
example := C93_cte_nsb (b := .e) (c := 1) (call "nsb", [("src_hist_len", .int 2)]) trivial none (by kwk) (by simp) demoHistory (by kw)
  (by norm_num) (by norm_num) (by norm_num) (by norm_num) sybA sybB sybC sybRC (by simp [idA]) rfl rfl

/-! ## `normalize=True` -/

example := C93_mi_normalize_bias .chaoShen (b := .e) (cond := .absent) (call "chao_shen", [("normalize", .bool true)]) trivial rfl (by kw) (by kw) sybAB
  (fun c hc => sybV c (List.mem_cons_of_mem _ hc)) (N := 4) (by norm_num) (by simp) (by simp [idA, idB])
example := C93_mi_normalize_bayes (.num (1 / 2)) none idBayes (b := .e) (cond := .absent)
  (call "bayes", [("alpha", .num (1 / 2)), ("normalize", .bool true)]) trivial rfl (by kw) (by kw)
  (by kw) (by kw) sybAB (fun c hc => sybV c (List.mem_cons_of_mem _ hc)) (N := 4) (by norm_num) (by simp) (by simp [idA, idB])
example := C93_mi_normalize_ansb (b := .e) (cond := .absent) (call "ansb", [("normalize", .bool true)]) trivial rfl (by kw) (by kw) (1 / 10)
  (by norm_num) (by kw) sybAB (fun c hc => sybV c (List.mem_cons_of_mem _ hc)) (N := 4) (by norm_num) (by simp) (by simp [idA, idB])
example := C93_mi_normalize_nsb (b := .e) (cond := .absent) (call "nsb", [("normalize", .bool true)]) trivial rfl (by kw) (by kw) none (by kwk) (by simp)
  sybAB (fun c hc => sybV c (List.mem_cons_of_mem _ hc)) (N := 4) (by norm_num) (by simp) (by simp [idA, idB])
example := C93_cmi_normalize_bias .bonachela (b := .e) (call "bonachela", [("normalize", .bool true)]) trivial (by kw) (by kw) sybAB sybC sybV
  (by simp [idC]) (by simp) (by simp [idA, idB, idC])
example := C93_cmi_normalize_bayes (.num (1 / 2)) none idBayes (b := .e) (call "bayes", [("alpha", .num (1 / 2)), ("normalize", .bool true)]) trivial
  (by kw) (by kw) (by kw) (by kw) sybAB sybC sybV (by simp [idC]) (by simp) (by simp [idA, idB, idC])
example := C93_cmi_normalize_ansb (b := .e) (call "ansb", [("normalize", .bool true)]) trivial (by kw) (by kw) (1 / 10) (by norm_num) (by kw)
  sybAB sybC sybV (by simp [idC]) (by simp) (by simp [idA, idB, idC])
example := C93_cmi_normalize_nsb (b := .e) (call "nsb", [("normalize", .bool true)]) trivial (by kw) (by kw) none (by kwk) (by simp)
  sybAB sybC sybV (by simp [idC]) (by simp) (by simp [idA, idB, idC])

end Verif
