import Verif.Props.EndToEnd5
import Verif.Props.Gauss8

/-!
# C82: concrete calls that meet the hypotheses of the end-to-end theorems
-/

namespace Verif

open Spec

/-- a world: ASCII `lower`, natural logarithm configured, the stable sort, some eigen-decomposition -/
noncomputable def demo : World where
  lower := asciiLower
  b0 := .str "e"
  quick := stableSort
  eig := Classical.choose eigOK_exists
  find := fun _ _ => 1
  cpu := 8
  draw := fun _ _ _ => 1
  other := fun _ => .error .valueError

theorem demo_eig : EigOK demo.eig := Classical.choose_spec eigOK_exists

theorem lookup_mem_fst {l : List (String × PyVal)} {k : String} (h : l.lookup k ≠ none) : k ∈ l.map Prod.fst := by
  induction l with
  | nil => simp at h
  | cons p t ih =>
    by_cases hp : k = p.1
    · simp [hp]
    · rw [List.lookup_cons] at h
      rw [show (k == p.1) = false by simpa using hp] at h
      exact List.mem_cons_of_mem _ (ih h)

/-- a call given by a list of keyword arguments -/
theorem demoCall {k : Kind} {f : Fam} (s : String) (l : List (String × PyVal)) {b : Base} (h1 : asciiLower.run s ∈ approachNames k f)
    (h2 : ∀ n ∈ l.map Prod.fst, n ∈ acceptedKw (.str "e") ⟨k, f⟩) (h3 : (kwOr (kwList l) "base" (.str "e")).toBase = some b) :
    Call demo k f (.str s) (kwList l) b :=
  ⟨⟨s, rfl, h1⟩, fun n hn => h2 n (lookup_mem_fst hn), h3⟩


/-- the value of a keyword argument in a literal list -/
macro "kw" : tactic => `(tactic| (simp [kwOr, kwList, List.lookup, PyVal.toBase, PyVal.toNum, PyVal.toAlpha, PyVal.toArg, PyVal.toOptArg, PyVal.toPNorm]; done))

/-- a literal call is well formed -/
macro "call" s:term ", " l:term : term => `(demoCall $s $l (by decide +kernel) (by decide +kernel) (by kw))

example := C82_entropy .millerMadow (by simp [simpleFams]) (b := .num 2) (call "MM", [("base", .int 2)]) (by norm_num [Base.Std]) [1, 1, 2] (by simp)
example := C82_entropy .zhang (by simp [simpleFams]) (b := .e) (call "zhang", []) trivial [1, 1, 2] (by simp)
example := C82_joint_entropy (b := .e) (call "Discrete", []) trivial [[1, 1, 2], [0, 3, 0]] 3 (by norm_num) (by simp) (by simp)
example := C82_cross_entropy (b := .num 10) (call "discrete", [("base", .num 10)]) (by norm_num [Base.Valid]) [1, 1, 2] [2, 1] (by simp) (by simp)
example := C82_bayes_entropy (b := .e) (call "bayes", [("alpha", .num (1 / 2))]) trivial [1, 1, 2] (by simp) (.num (1 / 2)) (1 / 2)
  (by kw) (by norm_num) (by simp [PriorIs]) (by kw)
example := C82_ansb_entropy (b := .e) (call "ansb", []) trivial [1, 1, 2] (by simp) (by kw)
example := C82_nsb_entropy (b := .e) (call "nsb", [("K", .int 3)]) trivial [1, 1, 2] (by simp) (some 3) (by kw) (by simp)
example := C82_box_entropy (b := .e) (call "kernel", [("bandwidth", .num 1), ("kernel", .str "box"), ("workers", .int (-1))]) trivial (.one [0, 1, 3])
  (KVar.wf_one _) (by simp [KVar.len]) 1 one_pos (-1) (by kw) (by kw) (by kw)
example := C82_gaussian_entropy (b := .e) (call "kernel", [("bandwidth", .num 1), ("kernel", .str "gaussian")]) trivial demo_eig [0, 1, 0, 1]
  (by simp) gVar_pos 1 one_pos (by kw) (by kw) (by kw)
example := C82_mi (b := .e) (cond := .none) (call "discrete", []) trivial rfl (by kw) [[1, 1, 2], [0, 3, 0], [1, 2, 3]] 3 (by norm_num) (by simp) (by simp) (by norm_num)
example := C82_mi_two (b := .e) (cond := .absent) (call "discrete", []) trivial rfl (by kw) [1, 1, 2] [0, 3, 0] rfl (by simp) (by norm_num)
example := C82_mi_offset (b := .e) (cond := .absent) (call "discrete", [("offset", .int (-1))]) trivial rfl (-1) (by kw) [1, 1, 2] [0, 3, 0] rfl (by norm_num) (by norm_num)
example := C82_mi_miller_madow (b := .e) (cond := .absent) (call "mm", []) trivial rfl (by kw) [[1, 1, 2], [0, 3, 0]] 3 (by norm_num) (by simp) (by simp) (by norm_num)
example := C82_mi_bias .shrink (b := .e) (cond := .absent) (call "Shrink", [("offset", .int 0)]) trivial rfl ⟨by kw, by kw⟩ [[1, 1, 2], [0, 3, 0]] 3 (by norm_num) (by simp) (by simp)
example := C82_mi_ansb (b := .e) (cond := .absent) (call "ansb", []) trivial rfl ⟨by kw, by kw⟩ (1 / 10) (by norm_num) (by kw) [[1, 1, 2], [0, 0, 0]] 3 (by norm_num) (by simp) (by simp)
example := C82_mi_nsb (b := .e) (cond := .absent) (call "nsb", []) trivial rfl ⟨by kw, by kw⟩ none (by kw) (by simp) [[1, 1, 2], [0, 0, 0]] 3 (by norm_num) (by simp) (by simp)
example := C82_mi_box (b := .e) (cond := .absent) (call "kernel", [("bandwidth", .num 1), ("kernel", .str "box")]) trivial rfl ⟨by kw, by kw⟩
  [.one [0, 1, 3], .one [5, 7, 1]] 3 ⟨by simp, by norm_num, by simp [KVar.len], by simp [KVar.wf_one]⟩ 1 one_pos 1 (by kw) (by kw) (by kw)
example := C82_mi_gaussian (b := .e) (cond := .absent) (call "kernel", [("bandwidth", .num 1), ("kernel", .str "gaussian")]) trivial rfl ⟨by kw, by kw⟩
  demo_eig gEx (by norm_num) (by norm_num) gEx_length gEx_spread 1 one_pos (by kw) (by kw) (by kw)
example := C82_cmi (b := .e) (call "discrete", []) trivial (by kw) [1, 1, 2] [0, 3, 0] [1, 0, 1] rfl rfl (by simp) (by norm_num)
example := C82_cmi_bias .zhang (b := .e) (call "zhang", []) trivial ⟨by kw, by kw⟩ [[1, 1, 2], [0, 3, 0]] [1, 0, 1] (by norm_num) (by simp) (by simp)
example := C82_cmi_miller_madow (b := .e) (call "miller_madow", []) trivial (by kw) [[1, 1, 2], [0, 3, 0]] [1, 0, 1] (by norm_num) (by simp) (by simp) (by norm_num)
example := C82_cmi_box (b := .e) (call "kernel", [("bandwidth", .num 1), ("kernel", .str "box")]) trivial ⟨by kw, by kw⟩
  [0, 1, 3] [5, 7, 1] [0, 0, 1] 3 (by norm_num) rfl rfl rfl 1 one_pos 1 (by kw) (by kw) (by kw)

/-- `src_hist_len=2, step_size=1` -/
theorem demoHistory : History (kwList [("src_hist_len", .int 2)]) 2 1 1 := ⟨by kw, by kw, by kw, by kw, by kw⟩

example := C82_te (b := .e) (cond := .absent) (call "discrete", [("src_hist_len", .int 2)]) trivial rfl demoHistory (by norm_num) (by norm_num) (by norm_num)
  [1, 1, 2, 0] [0, 3, 0, 1] (by norm_num) rfl (by norm_num)
example := C82_te_miller_madow (b := .e) (cond := .none) (call "mm", [("src_hist_len", .int 2)]) trivial rfl demoHistory (by norm_num) (by norm_num) (by norm_num)
  [1, 1, 2, 0] [0, 3, 0, 1] (by norm_num) rfl (by norm_num)
example := C82_te_bias .bonachela (b := .e) (cond := .absent) (call "bonachela", [("src_hist_len", .int 2)]) trivial rfl demoHistory (by norm_num) (by norm_num) (by norm_num)
  [1, 1, 2, 0] [0, 3, 0, 1] (by norm_num) rfl
example := C82_cte (b := .e) (c := 1) (call "discrete", [("src_hist_len", .int 2)]) trivial demoHistory (by kw) (by norm_num) (by norm_num) (by norm_num) (by norm_num)
  [1, 1, 2, 0] [0, 3, 0, 1] [7, 7, 8, 8] (by norm_num) rfl rfl (by norm_num)
example := C82_cte_bias .bonachela (b := .e) (c := 1) (call "bonachela", [("src_hist_len", .int 2)]) trivial demoHistory (by kw) (by norm_num) (by norm_num) (by norm_num)
  (by norm_num) [1, 1, 2, 0] [0, 3, 0, 1] [7, 7, 8, 8] (by norm_num) rfl rfl
example := C82_cte_box (b := .e) (c := 1) (l := 1) (k := 1) (s := 1) (call "kernel", [("bandwidth", .num 1), ("kernel", .str "box")]) trivial
  ⟨by kw, by kw, by kw, by kw, by kw⟩ (by kw) one_pos one_pos one_pos one_pos [0, 1, 3, 1] [5, 7, 1, 2] [0, 0, 1, 1] (by norm_num) rfl rfl (by simp [numRows])
  1 one_pos 1 (by kw) (by kw) (by kw)
example := C82_te_renyi (b := .e) (cond := .absent) (l := 1) (k := 1) (s := 1) (call "renyi", [("alpha", .num 2), ("noise_level", .int 0)])
  (call "renyi", [("alpha", .num 2), ("noise_level", .int 0)]) rfl ⟨by kw, by kw, by kw, by kw, by kw⟩ ⟨by kw, by kw⟩ (by kw) (by kw) one_pos one_pos one_pos
  [0, 1, 3, 1, 4, 9, 2] [5, 7, 1, 2, 0, 3, 3] (by norm_num) rfl (.int 4) (.num 2) (by kw) (by kw) (by kw) (by kw)

/-- a name that no estimator has -/
example := C82_value_error (W := demo) .transferEntropy [.ints [1, 2], .ints [3, 4]] .other .absent (kwList []) (.inl (by rintro f ⟨s, h, _⟩; cases h))
/-- one series is not enough for mutual information -/
example := C82_value_error (W := demo) .mutualInformation [.ints [1, 2]] (.str "mm") .absent (kwList []) (.inr (by simp [PubFn.Takes]))
example := C82_spelling (W := demo) .entropy [.ints [1, 2]] (.str "mm") (.str "Miller_Madow") .absent (kwList []) .millerMadow
  ⟨_, rfl, by decide +kernel⟩ ⟨_, rfl, by decide +kernel⟩
/-- `bandwidth` is not a parameter of the discrete estimator, and `embedding_dim` is missing -/
example := C82_type_error (W := demo) .entropy [.ints [1, 2]] (.str "discrete") .absent (kwList [("bandwidth", .num 1)]) .discrete
  ⟨_, rfl, by decide +kernel⟩ trivial (by kw) (.inr ⟨"bandwidth", by simp [kwList, List.lookup], by decide +kernel⟩)
example := C82_type_error (W := demo) .transferEntropy [.reals [1, 2], .reals [1, 2]] (.str "symbolic") .absent (kwList []) .ordinal
  ⟨_, rfl, by decide +kernel⟩ rfl (by kw) (.inl ⟨"embedding_dim", by decide +kernel, by kw⟩)
example := C82_explicit_default (W := demo) .mutualInformation [.reals [1, 2], .reals [1, 2]] (.str "ksg") .absent (kwList []) .metric
  ⟨_, rfl, by decide +kernel⟩ "k" (.int 4) (by simp [optionalKw, ownKw, PubFn.kind]) (by kw)
example := C82_ignored (W := demo) .mutualInformation [.reals [1, 2], .reals [1, 2]] (.str "renyi") .absent (kwList []) .renyi
  ⟨_, rfl, by decide +kernel⟩ "step_size" (.int 3) (by decide +kernel)
example := C82_factory_mi (W := demo) [.reals [1, 2], .reals [1, 2]] none (.str "ksg") (kwList []) "MI"
example := C82_factory_te (W := demo) [.reals [1, 2], .reals [1, 2]] none (.str "ksg") (kwList []) "TE"

/-- `prop_time=2, step_size=2` -/
theorem demoLag : Lag (kwList [("prop_time", .int 2), ("step_size", .int 2)]) (kwList [("step_size", .int 2)]) 2 2 :=
  ⟨fun r h1 _ => by simp only [kwList, List.lookup_cons]; rw [show (r == "prop_time") = false by simpa using h1], by kw, by kw, by kw, .inl ⟨by kw, by kw⟩⟩

example := C82_te_lag_discrete (W := demo) (f := .chaoShen) (cond := .absent) (by simp [discreteFams]) ⟨"Chao_Shen", rfl, by decide +kernel⟩
  (fun n hn => (by decide +kernel : ∀ n ∈ [("prop_time", PyVal.int 2), ("step_size", .int 2)].map Prod.fst, n ∈ acceptedKw (.str "e") ⟨.te, .chaoShen⟩) n (lookup_mem_fst hn))
  ⟨⟨.e, by simp [demo, kwOr, kwList, List.lookup, PyVal.toBase]⟩, ⟨.int 1, by kw⟩, ⟨.int 1, by kw⟩, ⟨.int 1, by kw⟩, trivial⟩ rfl (by norm_num) demoLag
  [1, 2, 3, 4, 5, 6, 7] [0, 0, 1, 1, 0, 1, 1] rfl
example := C82_cte_lag_continuous (W := demo) (f := .metric) (by simp [continuousFams]) ⟨"KSG", rfl, by decide +kernel⟩
  (fun n hn => (by decide +kernel : ∀ n ∈ [("prop_time", PyVal.int 2), ("step_size", .int 2)].map Prod.fst, n ∈ acceptedKw (.str "e") ⟨.cte, .metric⟩) n (lookup_mem_fst hn))
  ⟨⟨.e, by simp [demo, kwOr, kwList, List.lookup, PyVal.toBase]⟩, ⟨.int 1, by kw⟩, ⟨.int 1, by kw⟩, ⟨.int 1, by kw⟩, ⟨4, by simp [kwOr, kwList, List.lookup, PyVal.toNat]⟩,
    ⟨1, by simp [kwOr, kwList, List.lookup, PyVal.toInt]⟩, ⟨1 / 10 ^ 8, by simp [kwOr, kwList, List.lookup, PyVal.toNoise, PyVal.toNum]⟩, ⟨.inf, by kw⟩⟩ (by norm_num) demoLag
  [1, 2, 3, 4, 5, 6, 7] [0, 0, 1, 1, 0, 1, 1] [0, 0, 1, 1, 0, 1, 1]

end Verif
