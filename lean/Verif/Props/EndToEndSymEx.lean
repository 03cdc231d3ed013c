import Verif.Props.EndToEndSym2
import Verif.Props.EndToEndSym3
import Verif.Props.EndToEndIdentEx

/-!
# C92: concrete calls that meet the hypotheses of the symmetry theorems
-/

namespace Verif

open Spec

/-- renamed: 1 ↦ 40, 2 ↦ -3, 0 ↦ 5 -/
theorem symA : Relabelled idA [40, 40, -3, 5] :=
  ⟨fun x => if x = 1 then 40 else if x = 2 then -3 else 5, by simp [idA], by simp [idA]⟩
theorem symB : Relabelled idB [9, 0, 9, 0] := ⟨fun x => if x = 0 then 9 else 0, by simp [idB], by simp [idB]⟩
theorem symC : Relabelled idC [1, 1, 2, 2] := ⟨fun x => x - 6, by simp [idC], by simp [idC]⟩

/-- the first variable renamed, the observations in the order 2, 0, 3, 1, the variables swapped -/
theorem symAB : Rearranged 4 [idA, idB] [[9, 9, 0, 0], [-3, 40, 5, 40]] :=
  .trans (.rename (.cons symA (.cons symB .nil)))
    (.trans (.samples [2, 0, 3, 1] (by decide)) (.order (by simpa [inOrder] using List.Perm.swap _ _ _)))

theorem symAone : Rearranged 4 [idA] [[-3, 40, 5, 40]] :=
  .trans (.rename (.cons symA .nil)) (by simpa [inOrder] using Rearranged.samples (cols := [[40, 40, -3, 5]]) [2, 0, 3, 1] (by decide))

theorem symABC : RearrangedCond 4 [idA, idB] idC [[9, 9, 0, 0], [-3, 40, 5, 40]] [2, 1, 2, 1] :=
  .trans (.rename (.cons symA (.cons symB .nil)) symC)
    (.trans (.samples [2, 0, 3, 1] (by decide)) (by simpa [inOrder] using RearrangedCond.order (List.Perm.swap _ _ _)))

example := (C92_entropy .zhang (by simp [simpleFams]) (b := .e) (call "zhang", []) trivial 4 (by norm_num)).1 idA _ rfl symAone
example := (C92_entropy .discrete (by simp [simpleFams]) (b := .num 2) (call "discrete", [("base", .int 2)]) (by norm_num [Base.Std]) 4
  (by norm_num)).2 _ _ (by simp) (by simp [idA, idB]) symAB
example := (C92_entropy_bayes (.num (1 / 2)) none idBayes (b := .e) (call "bayes", [("alpha", .num (1 / 2))]) trivial (by kw) (by kwk) 4
  (by norm_num)).2 _ _ (by simp) (by simp [idA, idB]) symAB
example := (C92_entropy_ansb (b := .e) (call "ansb", []) trivial (by kw) 4 (by norm_num)).1 idA _ rfl symAone
example := (C92_entropy_nsb (b := .e) (call "nsb", []) trivial none (by kwk) (by simp) 4 (by norm_num)).1 idA _ rfl symAone

example := C92_mi (b := .num 2) (cond := .none) (call "discrete", [("base", .int 2)]) (by norm_num [Base.Std]) rfl (by kw) symAB (by norm_num)
  (by simp) (by simp [idA, idB]) (by norm_num)
example := C92_mi_miller_madow (b := .e) (cond := .absent) (call "mm", []) trivial rfl (by kw) symAB (by norm_num) (by simp) (by simp [idA, idB])
  (by norm_num)
example := C92_mi_bias .chaoShen (b := .e) (cond := .absent) (call "chao_shen", []) trivial rfl ⟨by kw, by kw⟩ symAB (by norm_num) (by simp)
  (by simp [idA, idB])
example := C92_mi_bayes (.num (1 / 2)) none idBayes (b := .e) (cond := .absent) (call "bayes", [("alpha", .num (1 / 2))]) trivial rfl ⟨by kw, by kw⟩
  (by kw) (by kw) symAB (by norm_num) (by simp) (by simp [idA, idB])
example := C92_mi_ansb (b := .e) (cond := .absent) (call "ansb", []) trivial rfl ⟨by kw, by kw⟩ (1 / 10) (by norm_num) (by kw) symAB (by norm_num)
  (by simp) (by simp [idA, idB])
example := C92_mi_nsb (b := .e) (cond := .absent) (call "nsb", []) trivial rfl ⟨by kw, by kw⟩ none (by kwk) (by simp) symAB (by norm_num) (by simp)
  (by simp [idA, idB])

example := C82_cmi_many (b := .e) (call "discrete", []) trivial (by kw) (cols := [idA, idB, [5, 5, 5, 6]]) (z := idC) (by simp [idC]) (by simp)
  (by simp [idA, idB, idC]) (by norm_num [idC])
example := C92_cmi (b := .e) (call "discrete", []) trivial (by kw) (z := idC) symABC (by simp [idC]) (by simp) (by simp [idA, idB, idC]) (by norm_num [idC])
example := C92_cmi_miller_madow (b := .e) (call "mm", []) trivial (by kw) (z := idC) symABC (by simp [idC]) (by simp) (by simp [idA, idB, idC])
  (by norm_num [idC])
example := C92_cmi_bias .bonachela (b := .e) (call "bonachela", []) trivial ⟨by kw, by kw⟩ (z := idC) symABC (by simp [idC]) (by simp)
  (by simp [idA, idB, idC])
example := C92_cmi_bayes (.num (1 / 2)) none idBayes (b := .e) (call "bayes", [("alpha", .num (1 / 2))]) trivial ⟨by kw, by kw⟩ (by kw) (by kw)
  (z := idC) symABC (by simp [idC]) (by simp) (by simp [idA, idB, idC])
example := C92_cmi_ansb (b := .e) (call "ansb", []) trivial ⟨by kw, by kw⟩ (1 / 10) (by norm_num) (by kw) (z := idC) symABC (by simp [idC]) (by simp)
  (by simp [idA, idB, idC])
example := C92_cmi_nsb (b := .e) (call "nsb", []) trivial ⟨by kw, by kw⟩ none (by kwk) (by simp) (z := idC) symABC (by simp [idC]) (by simp)
  (by simp [idA, idB, idC])

example := C92_te (b := .e) (cond := .absent) (call "discrete", [("src_hist_len", .int 2)]) trivial rfl demoHistory (by norm_num) (by norm_num) (by norm_num)
  symA symB (by simp [idA]) rfl (by norm_num [idB])
example := C92_te_miller_madow (b := .e) (cond := .absent) (call "mm", [("src_hist_len", .int 2)]) trivial rfl demoHistory (by norm_num) (by norm_num)
  (by norm_num) symA symB (by simp [idA]) rfl (by norm_num [idB])
example := C92_te_bias .grassberger (b := .e) (cond := .absent) (call "grassberger", [("src_hist_len", .int 2)]) trivial rfl demoHistory (by norm_num)
  (by norm_num) (by norm_num) symA symB (by simp [idA]) rfl
example := C92_te_bayes (.num (1 / 2)) none idBayes (b := .e) (cond := .absent) (call "bayes", [("alpha", .num (1 / 2)), ("src_hist_len", .int 2)]) trivial
  (by kw) (by kw) rfl (l := 2) (k := 1) (s := 1) ⟨by kw, by kw, by kw, by kw, by kw⟩ (by norm_num) (by norm_num) (by norm_num) symA symB (by simp [idA]) rfl
example := C92_te_ansb (b := .e) (cond := .absent) (call "ansb", [("src_hist_len", .int 2)]) trivial (1 / 10) (by norm_num) (by kw) rfl demoHistory
  (by norm_num) (by norm_num) (by norm_num) symA symB (by simp [idA]) rfl
example := C92_te_nsb (b := .e) (cond := .absent) (call "nsb", [("src_hist_len", .int 2)]) trivial none (by kwk) (by simp) rfl demoHistory
  (by norm_num) (by norm_num) (by norm_num) symA symB (by simp [idA]) rfl

example := C92_cte (b := .e) (c := 1) (call "discrete", [("src_hist_len", .int 2)]) trivial demoHistory (by kw) (by norm_num) (by norm_num) (by norm_num)
  (by norm_num) symA symB symC (by simp [idA]) rfl rfl (by norm_num [idB])
example := C92_cte_miller_madow (b := .e) (c := 1) (call "mm", [("src_hist_len", .int 2)]) trivial demoHistory (by kw) (by norm_num) (by norm_num)
  (by norm_num) (by norm_num) symA symB symC (by simp [idA]) rfl rfl (by norm_num [idB])
example := C92_cte_bias .grassberger (b := .e) (c := 1) (call "grassberger", [("src_hist_len", .int 2)]) trivial demoHistory (by kw) (by norm_num)
  (by norm_num) (by norm_num) (by norm_num) symA symB symC (by simp [idA]) rfl rfl
example := C92_cte_bayes (.num (1 / 2)) none idBayes (b := .e) (c := 1) (call "bayes", [("alpha", .num (1 / 2)), ("src_hist_len", .int 2)]) trivial
  (by kw) (by kw) (l := 2) (k := 1) (s := 1) ⟨by kw, by kw, by kw, by kw, by kw⟩ (by kw) (by norm_num) (by norm_num) (by norm_num) (by norm_num)
  symA symB symC (by simp [idA]) rfl rfl
example := C92_cte_ansb (b := .e) (c := 1) (call "ansb", [("src_hist_len", .int 2)]) trivial (1 / 10) (by norm_num) (by kw) demoHistory (by kw)
  (by norm_num) (by norm_num) (by norm_num) (by norm_num) symA symB symC (by simp [idA]) rfl rfl
example := C92_cte_nsb (b := .e) (c := 1) (call "nsb", [("src_hist_len", .int 2)]) trivial none (by kwk) (by simp) demoHistory (by kw)
  (by norm_num) (by norm_num) (by norm_num) (by norm_num) symA symB symC (by simp [idA]) rfl rfl

/-! ## Real data -/

/-- the observations and the variables both swapped -/
theorem symReals : Reordered 2 [.one [0, 3], .one [0, 4]] [.one [4, 0], .one [3, 0]] :=
  .trans (.samples [1, 0] (by decide)) (.order (by simpa [KVar.reorder] using List.Perm.swap _ _ _))
theorem symRealsCond : ReorderedCond 2 [.one [0, 3], .one [0, 4]] (.one [0, 1]) [.one [4, 0], .one [3, 0]] (.one [1, 0]) :=
  .trans (.samples [1, 0] (by decide)) (by simpa [KVar.reorder] using ReorderedCond.order (List.Perm.swap _ _ _))

example := C92_mi_box (b := .e) (cond := .absent) (call "kernel", [("bandwidth", .num 1), ("kernel", .str "box")]) trivial rfl ⟨by kw, by kw⟩ _ _
  symReals miSamples_example.args 1 one_pos 1 (by kw) (by kw) (by kw)
example := C92_mi_metric (b := .e) (cond := .absent) (call "metric", [("noise_level", .int 0), ("k", .int 1)]) trivial rfl ⟨by kw, by kw⟩ (by kw) _ _
  symReals miSamples_example.args .inf rfl 1 one_pos 1 (.inl rfl) (by kw) (by kw) (by kw)
example := C92_mi_renyi (b := .e) (cond := .absent) (call "renyi", [("noise_level", .int 0), ("k", .int 1), ("alpha", .num (3 / 2))]) trivial rfl
  ⟨by kw, by kw⟩ (by kw) _ _ symReals miSamples_example 1 one_pos (by norm_num) (by kw) (.num (3 / 2)) (3 / 2) (by kw) (by norm_num [PyArg.posNumber])
  (by norm_num)
example := C92_mi_tsallis (b := .e) (cond := .absent) (call "tsallis", [("noise_level", .int 0), ("k", .int 1), ("q", .num (3 / 2))]) trivial rfl
  ⟨by kw, by kw⟩ (by kw) _ _ symReals miSamples_example 1 one_pos (by norm_num) (by kw) (.num (3 / 2)) (3 / 2) (by kw) (by norm_num [PyArg.posNumber])
  (by norm_num)
example := C92_mi_gaussian (b := .e) (cond := .absent) (call "kernel", [("bandwidth", .num 1), ("kernel", .str "gaussian")]) trivial rfl ⟨by kw, by kw⟩
  demo_eig gEx (by norm_num) (by norm_num) gEx_length gEx_spread 1 one_pos (by kw) (by kw) (by kw)
example := C92_mi_ordinal (b := .e) (cond := .absent) (call "ordinal", [("embedding_dim", .int 2)]) trivial rfl (by kw) [0, 1, 3] [5, 7, 1] 2 1 false
  (by kw) (by kw) (by kw) (by norm_num) le_rfl rfl (by simp) (by norm_num)
example := C92_cmi_metric (b := .e) (call "metric", [("noise_level", .int 0), ("k", .int 1)]) trivial ⟨by kw, by kw⟩ (by kw) _ _ _ _
  symRealsCond cmiSamples_example.args .inf rfl 1 one_pos (by norm_num) 1 (.inl rfl) (by kw) (by kw) (by kw)
example := C92_cmi_renyi (b := .e) (call "renyi", [("noise_level", .int 0), ("k", .int 1), ("alpha", .num (3 / 2))]) trivial
  ⟨by kw, by kw⟩ (by kw) _ _ _ _ symRealsCond cmiSamples_example 1 one_pos (by norm_num) (by kw) (.num (3 / 2)) (3 / 2) (by kw)
  (by norm_num [PyArg.posNumber]) (by norm_num)
example := C92_cmi_tsallis (b := .e) (call "tsallis", [("noise_level", .int 0), ("k", .int 1), ("q", .num (3 / 2))]) trivial
  ⟨by kw, by kw⟩ (by kw) _ _ _ _ symRealsCond cmiSamples_example 1 one_pos (by norm_num) (by kw) (.num (3 / 2)) (3 / 2) (by kw)
  (by norm_num [PyArg.posNumber]) (by norm_num)
example := C92_cmi_box (b := .e) (call "kernel", [("bandwidth", .num 1), ("kernel", .str "box")]) trivial ⟨by kw, by kw⟩
  [0, 1, 3] [5, 7, 1] [0, 0, 1] (n := 3) (by norm_num) rfl rfl rfl 1 one_pos 1 (by kw) (by kw) (by kw)
example := C92_cmi_gaussian (b := .e) (call "kernel", [("bandwidth", .num 1), ("kernel", .str "gaussian")]) trivial ⟨by kw, by kw⟩
  demo_eig [0, 1, 0, 1] [0, 0, 1, 1] [0, 1, 1, 0] (n := 4) (by norm_num) rfl rfl rfl gEx_spread 1 one_pos (by kw) (by kw) (by kw)
example := C92_entropy_box (b := .e) (call "kernel", [("bandwidth", .num 1), ("kernel", .str "box")]) trivial (.one [0, 1, 3]) (n := 3) (KVar.wf_one _) rfl
  (by norm_num) 1 one_pos 1 (by kw) (by kw) (by kw) [2, 0, 1] (by decide)
example := C92_entropy_metric (b := .e) (call "metric", [("noise_level", .int 0), ("k", .int 1)]) trivial (.one [0, 3])
  (miSamples_example.sample _ (by simp)) .inf rfl 1 one_pos (by norm_num) 1 (.inl rfl) (by kw) (by kw) (by kw) (by kw) [1, 0] (by decide)

example := C92_entropy_renyi (b := .e) (call "renyi", [("k", .int 1), ("alpha", .num (3 / 2))]) trivial (.one [0, 3])
  (miSamples_example.sample _ (by simp)) (.int 1) (.num (3 / 2)) (by kw) (by kw) [1, 0] (by decide)
example := C92_entropy_tsallis (b := .e) (call "tsallis", [("k", .int 1), ("q", .num (3 / 2))]) trivial (.one [0, 3])
  (miSamples_example.sample _ (by simp)) (.int 1) (.num (3 / 2)) (by kw) (by kw) [1, 0] (by decide)
example := C92_entropy_gaussian (b := .e) (call "kernel", [("bandwidth", .num 1), ("kernel", .str "gaussian")]) trivial demo_eig [2, 5] [5, 2]
  (List.Perm.swap _ _ _) (by simp) gVar_pos' 1 one_pos (by kw) (by kw) (by kw)
example := C92_mi_offset (b := .e) (cond := .absent) (cond' := .none) (.inr rfl) (call "mm", [("offset", .int (-2))])
  (call "miller_madow", [("offset", .int 2)]) trivial rfl rfl (-2) (by kw) (by kw) idA idB rfl (by simp [idA]) (by norm_num [idA])
example := C92_mi_offset_bias .zhang (b := .e) (cond := .absent) (cond' := .none) (call "zhang", [("offset", .int 1)])
  (call "zhang", [("offset", .int (-1))]) trivial rfl rfl (by kw) (by kw) 1 (by kw) (by kw) idA idB rfl (by simp [idA])

end Verif
