import Verif.Props.EndToEndLocal2

/-!
# C84: concrete calls that meet the hypotheses of the theorems about local values
-/

namespace Verif

open Spec

theorem demoAsks_h (xs : PyData) : Asks demo.lower "Entropy" [xs] none .h := .inl ⟨by decide +kernel, rfl, .inl rfl⟩
theorem demoAsks_hx (xs ys : PyData) : Asks demo.lower "cross-entropy" [xs, ys] none .h := .inr ⟨by decide +kernel, rfl, rfl⟩
theorem demoAsks_mi (xs ys : PyData) : Asks demo.lower "mutual information" [xs, ys] none .mi := ⟨by decide +kernel, rfl, le_rfl⟩
theorem demoAsks_cmi (xs ys zs : PyData) : Asks demo.lower "CMI" [xs, ys] (some zs) .cmi := ⟨.inr (by decide +kernel), rfl, le_rfl⟩
theorem demoAsks_te (xs ys : PyData) : Asks demo.lower "te" [xs, ys] none .te := ⟨by decide +kernel, rfl, rfl⟩
theorem demoAsks_cte (xs ys zs : PyData) : Asks demo.lower "te" [xs, ys] (some zs) .cte := ⟨.inl (by decide +kernel), rfl, rfl⟩

theorem demoNoNamed (l : List (String × PyVal)) (h : ∀ n ∈ namedParams, l.lookup n = none) : NoNamed (kwList l) := h

example := C84_entropy_surprisal (b := .e) (demoAsks_h (.ints [1, 1, 2])) (call "discrete", []) (demoNoNamed [] (by simp)) trivial (by simp)
example := C84_entropy_mean (b := .num 2) (demoAsks_h (.ints [1, 1, 2])) (f := .zhang) (call "Zhang", [("base", .int 2)])
  (demoNoNamed _ (by decide +kernel)) (by simp) (by norm_num [Base.Valid]) (by simp)
example := C84_shrink_entropy_mean_fails (demoAsks_h _) (call "shrink", []) (demoNoNamed [] (by simp))
example := C84_ordinal_entropy_mean (b := .e) [0, 2, 1, 5] (demoAsks_h _) (call "ordinal", [("embedding_dim", .int 2)])
  (demoNoNamed _ (by decide +kernel)) trivial 2 false rfl rfl le_rfl (by simp)
example := C84_mi_mean (b := .e) [[1, 1, 2], [0, 3, 0]] 3 (demoAsks_mi _ _) (f := .millerMadow) (call "mm", []) (.inr rfl)
  (demoNoNamed [] (by simp)) (by kw) (by norm_num) (by simp) (by norm_num) trivial
example := C84_ordinal_mi_mean (b := .e) [0, 2, 1, 5] [3, 1, 2, 4] (demoAsks_mi _ _) (call "ordinal", [("embedding_dim", .int 2)])
  (demoNoNamed _ (by decide +kernel)) (by kw) rfl 2 false rfl rfl le_rfl (by simp) (by norm_num) trivial
example := C84_cmi_mean (b := .e) [[1, 1, 2], [0, 3, 0]] [1, 0, 1] (demoAsks_cmi _ _ _) (f := .discrete) (call "discrete", []) (.inl rfl)
  (demoNoNamed [] (by simp)) (by kw) (by norm_num) (by simp) (by norm_num) trivial
example := C84_ordinal_cmi_mean (b := .e) [0, 2, 1, 5] [3, 1, 2, 4] [1, 0, 7, 4] (demoAsks_cmi _ _ _) (call "ordinal", [("embedding_dim", .int 2)])
  (demoNoNamed _ (by decide +kernel)) (by kw) rfl rfl 2 false rfl rfl le_rfl (by simp) (by norm_num) trivial
example := C84_te_mean (b := .e) [1, 1, 2, 0] [0, 3, 0, 1] (demoAsks_te _ _) (f := .discrete) (call "discrete", [("src_hist_len", .int 2)]) (.inl rfl)
  (by decide +kernel) demoHistory (by norm_num) (by norm_num) (by norm_num) (by norm_num) rfl (by norm_num) trivial
example := C84_ordinal_te_mean (b := .e) (l := 1) (r := 1) (s := 1) (d := 2) [0, 2, 1, 5] [3, 1, 2, 4] (demoAsks_te _ _)
  (call "ordinal", [("embedding_dim", .int 2)]) (by decide +kernel) ⟨by kw, by kw, by kw, by kw, by kw⟩ false rfl rfl
  (by norm_num) (by norm_num) (by norm_num) (by norm_num) (by norm_num) (by norm_num) rfl (by norm_num) trivial
example := C84_cte_mean (b := .e) (q := 1) [1, 1, 2, 0] [0, 3, 0, 1] [1, 0, 0, 1] (demoAsks_cte _ _ _) (f := .millerMadow)
  (call "mm", [("src_hist_len", .int 2)]) (.inr rfl) demoHistory (by kw) (by norm_num) (by norm_num) (by norm_num) (by norm_num) (by norm_num)
  rfl rfl (by norm_num) trivial
example := C84_ordinal_cte_mean (b := .e) (l := 1) (r := 1) (s := 1) (q := 1) (d := 2) [0, 2, 1, 5] [3, 1, 2, 4] [0, 1, 0, 2] (demoAsks_cte _ _ _)
  (call "ordinal", [("embedding_dim", .int 2)]) ⟨by kw, by kw, by kw, by kw, by kw⟩ (by kw) false rfl rfl
  (by norm_num) (by norm_num) (by norm_num) (by norm_num) (by norm_num) (by norm_num) (by norm_num) rfl rfl (by norm_num) trivial

/-- the box kernel: the value of `C82_mi_box`, so local values exist and have that mean -/
theorem demo_box_locals : ∃ ls g, imLocal demo [.reals [0, 1, 3], .reals [5, 7, 1]] none (.str "mutual information") (.str "kernel")
      (kwList [("bandwidth", .num 1), ("kernel", .str "box")]) = some (.ok ls) ∧ ls ≠ [] ∧
    imEstimator demo [.reals [0, 1, 3], .reals [5, 7, 1]] (.str "kernel") (kwList [("bandwidth", .num 1), ("kernel", .str "box")]) none
      (.str "mutual information") = .ok g ∧ mean ls = g := by
  have hcall : Call demo .mi .kernel (.str "kernel") (kwList [("bandwidth", .num 1), ("kernel", .str "box")]) .e :=
    call "kernel", [("bandwidth", .num 1), ("kernel", .str "box")]
  have hv := C82_mi_box (cond := .absent) hcall trivial rfl ⟨by kw, by kw⟩ [.one [0, 1, 3], .one [5, 7, 1]] 3
    ⟨by simp, by norm_num, by simp [KVar.len], by simp [KVar.wf_one]⟩ 1 one_pos 1 (by kw) (by kw) (by kw)
  have hn : NoNamed (kwList [("bandwidth", .num 1), ("kernel", .str "box")]) := demoNoNamed _ (by decide +kernel)
  have hfac := C82_factory_mi (W := demo) [.reals [0, 1, 3], .reals [5, 7, 1]] none (.str "kernel") _ "mutual information" hn
    (by decide +kernel) (by simp)
  rw [show condOf (none : Option PyData) = .absent from rfl] at hfac
  have hg := hfac.trans hv
  obtain ⟨p, e1, e2, hr, ho⟩ := local_built (demoAsks_mi (.reals [0, 1, 3]) (.reals [5, 7, 1])) hcall hn (by simp [requiredKw])
  have hl : ∃ l, imLocal demo [.reals [0, 1, 3], .reals [5, 7, 1]] none (.str "mutual information") (.str "kernel")
      (kwList [("bandwidth", .num 1), ("kernel", .str "box")]) = some l := by
    rw [e2]
    have hx : [PyData.reals [0, 1, 3], .reals [5, 7, 1]].mapM PyData.toKVar = some [.one [0, 1, 3], .one [5, 7, 1]] := rfl
    have g1 := getOpt (data := [.reals [0, 1, 3], .reals [5, 7, 1]]) (c := none) ho (n := "base") (d := demo.b0) (by opt) hcall.base
    have g2 := getOpt (data := [.reals [0, 1, 3], .reals [5, 7, 1]]) (c := none) ho (n := "offset") (d := .int 0) (g := PyVal.toOptInt) (v := some 0) (by opt) rfl
    have g3 := getOpt (data := [.reals [0, 1, 3], .reals [5, 7, 1]]) (c := none) ho (n := "normalize") (d := .bool false) (g := PyVal.toBool) (v := false) (by opt) rfl
    have g4 := getOpt (data := [.reals [0, 1, 3], .reals [5, 7, 1]]) (c := none) ho (n := "bandwidth") (d := .none) (g := PyVal.toArg) (by opt) (v := .num 1) (by kw)
    have g5 := getOpt (data := [.reals [0, 1, 3], .reals [5, 7, 1]]) (c := none) ho (n := "kernel") (d := .none) (g := PyVal.toKernel demo.eig) (v := .box) (by opt) (by simp [kwOr, kwList, List.lookup, PyVal.toKernel])
    have g6 := getOpt (data := [.reals [0, 1, 3], .reals [5, 7, 1]]) (c := none) ho (n := "workers") (d := .int 1) (g := PyVal.toInt) (v := 1) (by opt) rfl
    simp [Est.locals, Est.miLocals, g1, g2, g3, hx, Est.kde, g4, g5, g6]
  obtain ⟨l, hl⟩ := hl
  obtain ⟨ls, rfl, h1, h2⟩ := C84_local_exists (demoAsks_mi _ _) hcall.name (.inl rfl) (by simp) l hl _ hg
  exact ⟨ls, _, hl, h1, hg, h2⟩

example := fun ls h1 h2 => C84_local_mean (W := demo) (demoAsks_mi (.reals [0, 1, 3]) (.reals [5, 7, 1])) (a := .str "kernel") (f := .kernel)
  (kw := kwList [("bandwidth", .num 1), ("kernel", .str "box")]) ⟨"kernel", rfl, by decide +kernel⟩ (by simp [meanFams]) ls h1 h2

/-- two series of different length: both calls raise `ValueError` -/
theorem demo_mi_error : imEstimator demo [.ints [1, 2], .ints [1, 2, 3]] (.str "discrete") (kwList []) none (.str "mutual information") = .error .valueError ∧
    imLocal demo [.ints [1, 2], .ints [1, 2, 3]] none (.str "mutual information") (.str "discrete") (kwList []) = some (.error .valueError) := by
  have hcall : Call demo .mi .discrete (.str "discrete") (kwList []) .e := call "discrete", []
  obtain ⟨p, e1, e2, hr, ho⟩ := local_built (demoAsks_mi (.ints [1, 2]) (.ints [1, 2, 3])) hcall (demoNoNamed [] (by simp)) (by simp [requiredKw])
  have hx : [PyData.ints [1, 2], .ints [1, 2, 3]].mapM PyData.toInts = some [[1, 2], [1, 2, 3]] := rfl
  have g1 := getOpt (data := [.ints [1, 2], .ints [1, 2, 3]]) (c := none) ho (n := "base") (d := demo.b0) (by opt) hcall.base
  have g2 := getOpt (data := [.ints [1, 2], .ints [1, 2, 3]]) (c := none) ho (n := "offset") (d := .int 0) (g := PyVal.toOptInt) (v := some 0) (by opt) rfl
  have hv : discreteMI (.all1D [[1, 2], [1, 2, 3]]) (some 0) .e false = .error .valueError := by
    simp [discreteMI, miInit, bind, Except.bind]
  have hv' : discreteMILocal [[1, 2], [1, 2, 3]] (some 0) .e false = .error .valueError := by
    simp [discreteMILocal, miInit, bind, Except.bind]
  constructor
  · rw [e1]; simp [Est.result, Est.mi, g1, g2, hx, hv]
  · rw [e2]; simp [Est.locals, Est.miLocals, g1, g2, hx, hv, hv', afterGlobal]

example := C84_same_exception (demoAsks_mi _ _) ⟨"discrete", rfl, by decide +kernel⟩ (f := .discrete) (by simp) _ demo_mi_error.2 _ demo_mi_error.1 (by simp)

/-- Chao–Shen entropy: a value and no local values -/
theorem demo_chaoShen : ∃ l, imLocal demo [.ints [1, 1, 2]] none (.str "Entropy") (.str "chao_shen") (kwList []) = some l := by
  have hcall : Call demo .h .chaoShen (.str "chao_shen") (kwList []) .e := call "chao_shen", []
  obtain ⟨p, e1, e2, hr, ho⟩ := local_built (demoAsks_h (.ints [1, 1, 2])) hcall (demoNoNamed [] (by simp)) (by simp [requiredKw])
  have hx : [PyData.ints [1, 1, 2]].mapM PyData.toEInput = some [.arr1 [1, 1, 2]] := rfl
  have g1 := getOpt (data := [.ints [1, 1, 2]]) (c := none) ho (n := "base") (d := demo.b0) (by opt) hcall.base
  rw [e2]
  simp [Est.locals, Est.entropyLocal, g1, hx, Est.dclass]

theorem demo_chaoShen_none : imLocal demo [.ints [1, 1, 2]] none (.str "Entropy") (.str "chao_shen") (kwList []) = some (.error .unsupportedOperation) := by
  obtain ⟨l, hl⟩ := demo_chaoShen
  have hcall : Call demo .h .chaoShen (.str "chao_shen") (kwList []) .e := call "chao_shen", []
  have hv := C82_entropy .chaoShen (by simp [simpleFams]) hcall trivial [1, 1, 2] (by simp)
  have hfac := C82_factory_entropy (W := demo) [.ints [1, 1, 2]] (.str "chao_shen") (kwList []) "Entropy" (demoNoNamed [] (by simp))
    (by decide +kernel) (.inl rfl)
  rcases C84_no_local_values (demoAsks_h _) hcall.name (by simp [noLocalFams]) (by simp) l hl with h | ⟨x, h, -⟩
  · rw [hl, h]; rfl
  · rw [hfac, hv] at h; cases h

/-- plug-in cross-entropy -/
theorem demo_cross : ∃ l, imLocal demo [.ints [1, 1, 2], .ints [2, 1]] none (.str "cross-entropy") (.str "discrete") (kwList []) = some l := by
  have hcall : Call demo .h .discrete (.str "discrete") (kwList []) .e := call "discrete", []
  obtain ⟨p, e1, e2, hr, ho⟩ := local_built (demoAsks_hx (.ints [1, 1, 2]) (.ints [2, 1])) hcall (demoNoNamed [] (by simp)) (by simp [requiredKw])
  have hx : [PyData.ints [1, 1, 2], .ints [2, 1]].mapM PyData.toEInput = some [.arr1 [1, 1, 2], .arr1 [2, 1]] := rfl
  have g1 := getOpt (data := [.ints [1, 1, 2], .ints [2, 1]]) (c := none) ho (n := "base") (d := demo.b0) (by opt) hcall.base
  rw [e2]
  simp [Est.locals, Est.entropyLocal, g1, hx, Est.dclass]

example := demo_cross.imp fun l hl => C84_cross_entropy (demoAsks_hx _ _) ⟨"discrete", rfl, by decide +kernel⟩ (f := .discrete) rfl l hl

end Verif
