import Verif.Props.EndToEndUnits
import Verif.Props.EndToEndUnits4
import Verif.Props.EndToEndEx
import Verif.Props.EndToEndIdentEx

/-!
# C95: concrete calls that meet the hypotheses
-/

namespace Verif

open Spec

/-- an increasing map of a reading -/
theorem unEx_mono (o : ℝ) : StrictMono (fun x : ℝ => 2 * x + o) := fun x y h => by
  show 2 * x + o < 2 * y + o
  linarith

example := C95_ordinal_entropy (b := .e) (call "ordinal", [("embedding_dim", .int 2)]) [0, 1, 3, 1, 4] (fun x => 2 * x + 5) (unEx_mono 5) 2 1 false
  (by kw) (by kw) (by kw) (.inr idTieFree1)
/-- readings with ties, `stable=True` -/
example := C95_ordinal_entropy (b := .e) (call "ordinal", [("embedding_dim", .int 3), ("stable", .bool true)]) [0, 0, 3, 3, 4] Real.exp Real.exp_strictMono 3 1 true
  (by kw) (by kw) (by kw) (.inl rfl)
example := C95_ordinal_joint (b := .e) (call "ordinal", [("embedding_dim", .int 2)])
  [([0, 1, 3, 1, 4], fun x => 2 * x + 5), ([5, 7, 1, 2, 0], Real.exp)] (by simpa using ⟨unEx_mono 5, Real.exp_strictMono⟩) 2 1 false
  (by kw) (by kw) (by kw) (by simpa using ⟨idTieFree1, idTieFree2⟩)
example := C95_ordinal_cross (b := .e) (call "ordinal", [("embedding_dim", .int 2)]) [0, 1, 3, 1, 4] [5, 7, 1, 2, 0] (fun x => 2 * x + 5) Real.exp
  (unEx_mono 5) Real.exp_strictMono 2 1 false (by kw) (by kw) (by kw) idTieFree1 idTieFree2
example := C95_ordinal_mi (b := .e) (cond := .absent) (call "ordinal", [("embedding_dim", .int 2)]) rfl (by kw)
  [([0, 1, 3, 1, 4], fun x => 2 * x + 5), ([5, 7, 1, 2, 0], Real.exp)] (by simpa using ⟨unEx_mono 5, Real.exp_strictMono⟩) 2 1 false
  (by kw) (by kw) (by kw) (by simpa using ⟨idTieFree1, idTieFree2⟩) 5 (by simp) (by simp)
example := C95_ordinal_cmi (b := .e) (call "ordinal", [("embedding_dim", .int 2)]) (by kw)
  [([0, 1, 3, 1, 4], fun x => 2 * x + 5), ([5, 7, 1, 2, 0], Real.exp)] (by simpa using ⟨unEx_mono 5, Real.exp_strictMono⟩) 2 1 false
  (by kw) (by kw) (by kw) (by simpa using ⟨idTieFree1, idTieFree2⟩) [5, 7, 1, 2, 0] Real.exp Real.exp_strictMono (.inr idTieFree2) (by simp) (by simp)
example := C95_ordinal_te (b := .e) (cond := .absent) (l := 1) (k := 1) (s := 1) (call "ordinal", [("embedding_dim", .int 2)]) rfl
  ⟨by kw, by kw, by kw, by kw, by kw⟩ 2 false (by kw) (by kw) [0, 1, 3, 1, 4] [5, 7, 1, 2, 0] rfl (fun x => 2 * x + 5) Real.exp
  (unEx_mono 5) Real.exp_strictMono (.inr idTieFree1) (.inr idTieFree2)
example := C95_ordinal_cte (b := .e) (l := 1) (k := 1) (s := 1) (c := 1) (call "ordinal", [("embedding_dim", .int 2)])
  ⟨by kw, by kw, by kw, by kw, by kw⟩ (by kw) 2 false (by kw) (by kw) [0, 1, 3, 1, 4] [5, 7, 1, 2, 0] [0, 1, 3, 1, 4] rfl rfl (fun x => 2 * x + 5) Real.exp
  (fun x => 2 * x + 1) (unEx_mono 5) Real.exp_strictMono (unEx_mono 1) (.inr idTieFree1) (.inr idTieFree2) (.inr idTieFree1)

example := C95_metric_entropy (b := .e) (call "metric", [("k", .int 2), ("noise_level", .int 0)]) trivial (.one [0, 1, 3]) 3 ⟨rfl, KVar.wf_one _, by decide⟩
  .inf rfl 2 (by decide) (by decide) (by kw) 1 (.inl rfl) (by kw) (by kw) (by kw)
  (fun t ht ε h => by
    obtain ⟨⟨s, hs, hne, rfl⟩, _⟩ := h
    interval_cases t <;> interval_cases s <;>
      first | exact absurd rfl hne | exact lt_of_lt_of_eq (by norm_num) (maxline_distance _ _).symm) (-2) (by norm_num) (fun _ => 5)
example := C95_metric_mi (b := .e) (cond := .absent) (call "ksg", [("noise_level", .int 0)]) trivial rfl ⟨by kw, by kw⟩ (by kw)
  [(.one [0, 1, 3], fun _ => 5), (.one [2, 2, 0], fun _ => -1)] 3 ⟨by simp, by decide, by simp [KVar.len], by simp [KVar.WF, assure2d, Points]⟩
  .inf rfl 4 (by decide) (by kw) (by kw) 1 (.inl rfl) (by kw) (-2) (by norm_num)
example := C95_metric_cmi (b := .e) (call "ksg", [("noise_level", .int 0)]) trivial ⟨by kw, by kw⟩ (by kw)
  [(.one [0, 1, 3], fun _ => 5), (.one [2, 2, 0], fun _ => -1)] (.one [2, 4, 4]) (fun _ => 7) 3
  ⟨by simp, by decide, by simp [KVar.len], by simp [KVar.WF, assure2d, Points], rfl, by simp [KVar.WF, assure2d, Points]⟩
  .inf rfl 4 (by decide) (by kw) (by kw) 1 (.inl rfl) (by kw) (-2) (by norm_num)
example := C95_metric_te (b := .e) (cond := .absent) (l := 1) (k := 1) (s := 1) (call "ksg", [("noise_level", .int 0)]) trivial rfl
  ⟨by kw, by kw, by kw, by kw, by kw⟩ (by kw) one_pos one_pos one_pos [0, 1, 3, 1, 4] [5, 7, 1, 2, 0] (by norm_num) rfl
  .inf rfl 4 (by decide) (by kw) (by kw) 1 (.inl rfl) (by kw) (-2) (by norm_num) 5 7
example := C95_metric_cte (b := .e) (l := 1) (k := 1) (s := 1) (e := 1) (call "ksg", [("noise_level", .int 0)]) trivial
  ⟨by kw, by kw, by kw, by kw, by kw⟩ (by kw) (by kw) one_pos one_pos one_pos one_pos [0, 1, 3, 1, 4] [5, 7, 1, 2, 0] [1, 1, 0, 0, 2] (by norm_num) rfl rfl
  .inf rfl 4 (by decide) (by kw) (by kw) 1 (.inl rfl) (by kw) (-2) (by norm_num) 5 7 1

example := C95_box_entropy (b := .e) (call "kernel", [("bandwidth", .num 1), ("kernel", .str "box")])
  (call "kernel", [("bandwidth", .num (|(-2 : ℝ)| * 1)), ("kernel", .str "box")]) trivial (.one [0, 1, 3]) (KVar.wf_one _) (by simp [KVar.len]) 1 (-2)
  one_pos (by norm_num) (fun _ => 5) 1 1 (by kw) (by kw) (by kw) (by kw) (by kw) (by kw)
example := C95_box_mi (b := .e) (cond := .absent) (call "kernel", [("bandwidth", .num 1), ("kernel", .str "box")])
  (call "kernel", [("bandwidth", .num (|(-2 : ℝ)| * 1)), ("kernel", .str "box")]) trivial rfl ⟨by kw, by kw⟩ ⟨by kw, by kw⟩
  [(.one [0, 1, 3], fun _ => 5), (.one [5, 7, 1], fun _ => -1)] 3 ⟨by simp, by norm_num, by simp [KVar.len], by simp [KVar.wf_one]⟩ 1 (-2) one_pos
  (by norm_num) 1 1 (by kw) (by kw) (by kw) (by kw) (by kw) (by kw)
example := C95_box_cmi (b := .e) (call "kernel", [("bandwidth", .num 1), ("kernel", .str "box")])
  (call "kernel", [("bandwidth", .num (|(-2 : ℝ)| * 1)), ("kernel", .str "box")]) trivial ⟨by kw, by kw⟩ ⟨by kw, by kw⟩
  [0, 1, 3] [5, 7, 1] [0, 0, 1] 5 6 7 3 (by norm_num) rfl rfl rfl 1 (-2) one_pos
  (by norm_num) 1 1 (by kw) (by kw) (by kw) (by kw) (by kw) (by kw)
example := C95_box_te (b := .e) (cond := .absent) (l := 1) (k := 1) (s := 1) (call "kernel", [("bandwidth", .num 1), ("kernel", .str "box")])
  (call "kernel", [("bandwidth", .num (|(-2 : ℝ)| * 1)), ("kernel", .str "box")]) trivial rfl ⟨by kw, by kw, by kw, by kw, by kw⟩
  ⟨by kw, by kw, by kw, by kw, by kw⟩ one_pos one_pos one_pos [0, 1, 3, 1] [5, 7, 1, 2] (by norm_num) rfl (by simp [numRows]) 5 6 1 (-2) one_pos
  (by norm_num) 1 1 (by kw) (by kw) (by kw) (by kw) (by kw) (by kw)
example := C95_box_cte (b := .e) (l := 1) (k := 1) (s := 1) (e := 1) (call "kernel", [("bandwidth", .num 1), ("kernel", .str "box")])
  (call "kernel", [("bandwidth", .num (|(-2 : ℝ)| * 1)), ("kernel", .str "box")]) trivial ⟨by kw, by kw, by kw, by kw, by kw⟩
  ⟨by kw, by kw, by kw, by kw, by kw⟩ (by kw) (by kw) one_pos one_pos one_pos one_pos [0, 1, 3, 1] [5, 7, 1, 2] [0, 0, 1, 1] (by norm_num) rfl rfl
  (by simp [numRows]) 5 6 7 1 (-2) one_pos (by norm_num) 1 1 (by kw) (by kw) (by kw) (by kw) (by kw) (by kw)

example := C95_gaussian_entropy (b := .e) (call "kernel", [("bandwidth", .num 1), ("kernel", .str "gaussian")]) trivial demo_eig [0, 1, 0, 1]
  (by simp) gVar_pos 1 one_pos (by kw) (by kw) (by kw) (-2) 5 (by norm_num)
example := C95_gaussian_mi (b := .e) (cond := .absent) (call "kernel", [("bandwidth", .num 1), ("kernel", .str "gaussian")]) trivial rfl ⟨by kw, by kw⟩
  demo_eig gEx (by norm_num) (by norm_num) gEx_length ![2, -1, 3] ![5, 0, 7] (by intro j; fin_cases j <;> norm_num) gEx_spread
  (gSpread_affine (r := 1 / 3) (by norm_num) gEx_cov gEx_ne ![2, -1, 3] ![5, 0, 7] (by intro j; fin_cases j <;> norm_num)) 1 one_pos (by kw) (by kw) (by kw)
example := C95_gaussian_cmi (b := .e) (call "kernel", [("bandwidth", .num 1), ("kernel", .str "gaussian")]) trivial ⟨by kw, by kw⟩
  demo_eig [0, 1, 0, 1] [0, 0, 1, 1] [0, 1, 1, 0] (n := 4) (by norm_num) rfl rfl rfl
  ![2, -1, 3] ![5, 0, 7] (by intro j; fin_cases j <;> norm_num) gEx_spread
  (by
    have h := gSpread_affine (r := 1 / 3) (by norm_num) gEx_cov gEx_ne ![2, -1, 3] ![5, 0, 7] (by intro j; fin_cases j <;> norm_num)
    convert h using 1
    funext j
    fin_cases j <;> rfl)
  1 one_pos (by kw) (by kw) (by kw)
example := C95_gaussian_te (b := .e) (cond := .absent) (l := 1) (k := 1) (s := 1) (call "kernel", [("bandwidth", .num 1), ("kernel", .str "gaussian")]) trivial
  demo_eig rfl ⟨by kw, by kw, by kw, by kw, by kw⟩ one_pos one_pos one_pos [0, 1, 0, 1, 7] [0, 0, 1, 1, 0] (by norm_num) rfl
  (by simp [numRows]) 1 one_pos (by kw) (by kw) (by kw) (-2) 5 3 1 (by norm_num) (by norm_num) (gEx_te 7)
  (by
    have h := gSpread_affine (r := 1 / 3) (by norm_num) gEx_cov gEx_ne ![-2, 3, 3] ![5, 1, 1] (by intro j; fin_cases j <;> norm_num)
    convert h using 1
    funext j
    fin_cases j <;> rfl)
example := C95_gaussian_cte (b := .e) (l := 1) (k := 1) (s := 1) (e := 1) (call "kernel", [("bandwidth", .num 1), ("kernel", .str "gaussian")]) trivial
  demo_eig ⟨by kw, by kw, by kw, by kw, by kw⟩ (by kw) one_pos one_pos one_pos one_pos
  [0, 1, 0, 1, 0, 1, 0, 1, 7] [0, 0, 1, 1, 0, 0, 1, 1, 0] [0, 0, 0, 0, 1, 1, 1, 1, 7] (by norm_num) rfl rfl
  (by simp [numRows]) 1 one_pos (by kw) (by kw) (by kw) (-2) 5 3 1 4 0 (by norm_num) (by norm_num) (by norm_num)
  (by
    convert gFour_spread using 1
    funext j
    fin_cases j <;> rfl)
  (by
    have h := gSpread_affine (r := 2 / 7) (by norm_num) gFour_cov gFour_ne ![-2, 3, 3, 4] ![5, 1, 1, 0] (by intro j; fin_cases j <;> norm_num)
    convert h using 1
    funext j
    fin_cases j <;> rfl)

/-- two samples at distance 3: the first neighbour of each is the other -/
theorem unEx_kth : ∀ t < 2, IsKthDist 2 1 t (dists (some 2) (KVar.one [0, 3]).samples t) 3 := by
  intro t ht
  refine ⟨⟨1 - t, by omega, by omega, ?_⟩, ?_, ?_⟩ <;> interval_cases t <;>
    simp [dists, KVar.samples, assure2d, line_distance, List.range_succ, below, within]

example := C95_renyi_entropy (b := .e) (call "renyi", [("k", .int 1), ("alpha", .num (3 / 2))]) trivial (.one [0, 3]) 2 ⟨rfl, KVar.wf_one _, Nat.one_pos⟩ 1
  (by decide) (by decide) (by kw) (.num (3 / 2)) (3 / 2) (by kw) (by simp [PyArg.posNumber]) (by norm_num) (fun _ => 3) unEx_kth ⟨0, by norm_num⟩
  (by norm_num) (-2) (by norm_num) (fun _ => 5)
example := C95_tsallis_entropy (b := .e) (call "tsallis", [("k", .int 1), ("q", .num (3 / 2))]) (.one [0, 3]) 2 ⟨rfl, KVar.wf_one _, Nat.one_pos⟩ 1
  (by decide) (by decide) (by kw) (.num (3 / 2)) (3 / 2) (by kw) (by simp [PyArg.posNumber]) (by norm_num) (by norm_num) (fun _ => 3) unEx_kth ⟨0, by norm_num⟩
  (-2) (by norm_num) (fun _ => 5)
example := C95_renyi_mi_origin (b := .e) (cond := .absent) (call "renyi", [("alpha", .num 2), ("noise_level", .int 0)]) rfl ⟨by kw, by kw⟩ (by kw)
  [(.one [0, 3], fun _ => 7), (.one [0, 4], fun _ => -1)] 2 miSamples_example (kn := .int 4) (order := .num 2) (by kw) (by kw)
example := C95_tsallis_mi_origin (b := .e) (cond := .absent) (call "tsallis", [("k", .int 1), ("q", .num 2), ("noise_level", .int 0)]) rfl ⟨by kw, by kw⟩ (by kw)
  [(.one [0, 3], fun _ => 7), (.one [0, 4], fun _ => -1)] 2 miSamples_example (kn := .int 1) (order := .num 2) (by kw) (by kw)
example := C95_renyi_cmi_origin (b := .e) (call "renyi", [("k", .int 1), ("alpha", .num 2), ("noise_level", .int 0)]) ⟨by kw, by kw⟩ (by kw)
  [(.one [0, 3], fun _ => 7), (.one [0, 4], fun _ => -1)] (.one [0, 1]) (fun _ => 2) 2 cmiSamples_example (kn := .int 1) (order := .num 2) (by kw) (by kw)
example := C95_tsallis_cmi_origin (b := .e) (call "tsallis", [("k", .int 1), ("q", .num 2), ("noise_level", .int 0)]) ⟨by kw, by kw⟩ (by kw)
  [(.one [0, 3], fun _ => 7), (.one [0, 4], fun _ => -1)] (.one [0, 1]) (fun _ => 2) 2 cmiSamples_example (kn := .int 1) (order := .num 2) (by kw) (by kw)
example := C95_renyi_te_origin (b := .e) (cond := .absent) (l := 1) (k := 1) (s := 1) (call "renyi", [("alpha", .num 2), ("noise_level", .int 0)]) rfl
  ⟨by kw, by kw, by kw, by kw, by kw⟩ (by kw) one_pos one_pos one_pos [0, 1, 3, 1, 4, 9, 2] [5, 7, 1, 2, 0, 3, 3] (by norm_num) rfl
  (kn := .int 4) (order := .num 2) (by kw) (by kw) 5 (-1)
example := C95_tsallis_te_origin (b := .e) (cond := .absent) (l := 1) (k := 1) (s := 1) (call "tsallis", [("q", .num 2), ("noise_level", .int 0)]) rfl
  ⟨by kw, by kw, by kw, by kw, by kw⟩ (by kw) one_pos one_pos one_pos [0, 1, 3, 1, 4, 9, 2] [5, 7, 1, 2, 0, 3, 3] (by norm_num) rfl
  (kn := .int 4) (order := .num 2) (by kw) (by kw) 5 (-1)
example := C95_renyi_cte_origin (b := .e) (l := 1) (k := 1) (s := 1) (e := 1) (call "renyi", [("alpha", .num 2), ("noise_level", .int 0)])
  ⟨by kw, by kw, by kw, by kw, by kw⟩ (by kw) (by kw) one_pos one_pos one_pos one_pos [0, 1, 3, 1, 4, 9, 2] [5, 7, 1, 2, 0, 3, 3] [1, 1, 2, 2, 3, 3, 4]
  (by norm_num) rfl rfl (kn := .int 4) (order := .num 2) (by kw) (by kw) 5 (-1) 7
example := C95_tsallis_cte_origin (b := .e) (l := 1) (k := 1) (s := 1) (e := 1) (call "tsallis", [("q", .num 2), ("noise_level", .int 0)])
  ⟨by kw, by kw, by kw, by kw, by kw⟩ (by kw) (by kw) one_pos one_pos one_pos one_pos [0, 1, 3, 1, 4, 9, 2] [5, 7, 1, 2, 0, 3, 3] [1, 1, 2, 2, 3, 3, 4]
  (by norm_num) rfl rfl (kn := .int 4) (order := .num 2) (by kw) (by kw) 5 (-1) 7
example := C95_renyi_mi (b := .e) (cond := .absent) (call "renyi", [("k", .int 1), ("alpha", .num (3 / 2)), ("noise_level", .int 0)]) trivial rfl ⟨by kw, by kw⟩ (by kw)
  [(.one [0, 3], fun _ => 7), (.one [0, 4], fun _ => -1)] 2 miSamples_example 1 (by decide) (by decide) (by kw) (.num (3 / 2)) (3 / 2) (by kw)
  (by simp [PyArg.posNumber]) (by norm_num) miSamples_example_kth.1 (-2) (by norm_num)
example := C95_renyi_cmi (b := .e) (call "renyi", [("k", .int 1), ("alpha", .num (3 / 2)), ("noise_level", .int 0)]) trivial ⟨by kw, by kw⟩ (by kw)
  [(.one [0, 3], fun _ => 7), (.one [0, 4], fun _ => -1)] (.one [0, 1]) (fun _ => 2) 2 cmiSamples_example 1 (by decide) (by decide) (by kw) (.num (3 / 2)) (3 / 2) (by kw)
  (by simp [PyArg.posNumber]) (by norm_num) cmiSamples_example_kth (-2) (by norm_num)
example := C95_renyi_te (b := .e) (cond := .absent) (l := 1) (k := 1) (s := 1)
  (call "renyi", [("k", .int 1), ("alpha", .num (3 / 2)), ("noise_level", .int 0)]) trivial rfl
  ⟨by kw, by kw, by kw, by kw, by kw⟩ (by kw) one_pos one_pos one_pos [0, 1, 3] [1, 0, 4] (by norm_num) rfl 1 (by decide) (by kw) (by decide)
  (.num (3 / 2)) (3 / 2) (by kw) (by simp [PyArg.posNumber]) (by norm_num)
  (by
    intro t ht ε hε
    have ht' : t < 2 := ht
    rw [two_kth ht' hε]
    interval_cases t <;> simp [dists, histRows, histRow, numRows, line_distance, List.range_succ]) (-2) (by norm_num) 7 1
example := C95_renyi_cte (b := .e) (l := 1) (k := 1) (s := 1) (e := 1)
  (call "renyi", [("k", .int 1), ("alpha", .num (3 / 2)), ("noise_level", .int 0)]) trivial
  ⟨by kw, by kw, by kw, by kw, by kw⟩ (by kw) (by kw) one_pos one_pos one_pos one_pos [0, 1, 3] [1, 0, 4] [0, 0, 0] (by norm_num) rfl rfl 1 (by decide) (by kw)
  (by decide) (.num (3 / 2)) (3 / 2) (by kw) (by simp [PyArg.posNumber]) (by norm_num)
  (by
    intro t ht ε hε
    have ht' : t < 2 := ht
    rw [two_kth ht' hε]
    have hF : ∀ f : Fin ([1, 0] : List ℝ).length → ℝ, ∑ i, f i = f 0 + f 1 := Fin.sum_univ_two
    have hF' : ∀ f : Fin ([0, 0] : List ℝ).length → ℝ, ∑ i, f i = f 0 + f 1 := Fin.sum_univ_two
    interval_cases t
    · simp [dists, histRow, numRows, distance, List.range_succ]
      erw [hF]
      simp
    · simp [dists, histRow, numRows, distance, List.range_succ]
      erw [hF']
      simp) (-2) (by norm_num) 7 1 3

end Verif
