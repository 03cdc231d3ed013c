import Verif.Props.EndToEnd
import Verif.Props.EndToEndNoise
import Verif.Props.EndToEndEx
import Verif.Props.OrdinalArgs

/-!
# C82, C85: joint entropy of a tuple of continuous variables through the functional interface

`sideBySide n vs` is the two-dimensional array whose rows are the joint samples of the variables `vs`.
-/

namespace Verif
open Spec

variable {W : World} {a : PyName} {kw : Kw} {b : Base}

theorem kernelEntropy_joint (vs : List KVar) (hne : vs ≠ []) (n : Nat) (hl : ∀ v ∈ vs, v.len = n) (cfg : KdeCfg) :
    kernelEntropy [.tup vs] cfg b = kernelEntropy [.arr (sideBySide n vs)] cfg b := by
  obtain ⟨hall, hs⟩ := sideBySide_ok hne hl
  simp only [kernelEntropy, kernelEntropyLocal, hall, if_true, hs, bind, Except.bind]

/-- **C82** `im.entropy((x, y, …), approach="kernel", …)` is the entropy of the array with the joint samples as rows, for every kernel
name, bandwidth and number of workers. -/
theorem C82_joint_kernel (hc : Call W .h .kernel a kw b) (vs : List KVar) (hne : vs ≠ []) (n : Nat) (hl : ∀ v ∈ vs, v.len = n)
    (h : PyArg) (kn : Kernel) (w : Int) (h1 : (kw "bandwidth").bind PyVal.toArg = some h)
    (h2 : (kw "kernel").bind (PyVal.toKernel W.eig) = some kn) (h3 : (kwOr kw "workers" (.int 1)).toInt = some w) :
    imEntropy W [.tup vs] a .absent kw = imEntropy W [.ofKVar (sideBySide n vs)] a .absent kw := by
  rw [(e2e_h_kernel hc.name hc.accepted h1 h2 h3 hc.base).1, (e2e_h_kernel hc.name hc.accepted h1 h2 h3 hc.base).1]
  simp only [List.map_cons, List.map_nil, toKArg_ofKVar]
  exact kernelEntropy_joint vs hne n hl _

/-- **C82** the same for the nearest-neighbour entropy, with or without noise. -/
theorem C82_joint_metric (hc : Call W .h .metric a kw b) (vs : List KVar) (hne : vs ≠ []) (n : Nat) (hl : ∀ v ∈ vs, v.len = n)
    (v : ℝ) (p : PNorm) (k : PyArg) (i : Int)
    (hv : (kwOr kw "noise_level" (.num (1 / 10 ^ 10))).toNum = some v) (h1 : (kwOr kw "k" (.int 4)).toArg = some k)
    (h2 : (kwOr kw "ksg_id" (.int 1)).toInt = some i) (h3 : (kwOr kw "minkowski_p" .inf).toPNorm = some p) :
    imEntropy W [.tup vs] a .absent kw = imEntropy W [.ofKVar (sideBySide n vs)] a .absent kw := by
  rw [(e2e_h_metric hc.name hc.accepted h1 h2 hv h3 hc.base).1, (e2e_h_metric hc.name hc.accepted h1 h2 hv h3 hc.base).1]
  simp only [List.map_cons, List.map_nil, toKArg_ofKVar]
  exact (C52_joint vs hne n hl _ _ _ b).1

/-- **C82** the same for Rényi entropy. -/
theorem C82_joint_renyi (hc : Call W .h .renyi a kw b) (vs : List KVar) (hne : vs ≠ []) (n : Nat) (hl : ∀ v ∈ vs, v.len = n)
    (k order : PyArg) (h1 : (kwOr kw "k" (.int 4)).toArg = some k) (h2 : (kwOr kw "alpha" .none).toArg = some order) :
    imEntropy W [.tup vs] a .absent kw = imEntropy W [.ofKVar (sideBySide n vs)] a .absent kw := by
  rw [(e2e_h_renyi hc.name hc.accepted h1 h2 hc.base).1, (e2e_h_renyi hc.name hc.accepted h1 h2 hc.base).1]
  simp only [List.map_cons, List.map_nil, toKArg_ofKVar]
  exact C64_joint _ vs hne n hl _ _ b

/-- **C82** the same for Tsallis entropy. -/
theorem C82_joint_tsallis (hc : Call W .h .tsallis a kw b) (vs : List KVar) (hne : vs ≠ []) (n : Nat) (hl : ∀ v ∈ vs, v.len = n)
    (k order : PyArg) (h1 : (kwOr kw "k" (.int 4)).toArg = some k) (h2 : (kwOr kw "q" .none).toArg = some order) :
    imEntropy W [.tup vs] a .absent kw = imEntropy W [.ofKVar (sideBySide n vs)] a .absent kw := by
  rw [(e2e_h_tsallis hc.name hc.accepted h1 h2 hc.base).1, (e2e_h_tsallis hc.name hc.accepted h1 h2 hc.base).1]
  simp only [List.map_cons, List.map_nil, toKArg_ofKVar]
  exact C64_joint _ vs hne n hl _ _ b

theorem mapM_series_one (cols : List (List ℝ)) : (cols.map KVar.one).mapM KVar.series = some cols := by
  induction cols with
  | nil => rfl
  | cons c t ih => rw [List.map_cons, List.mapM_cons, ih]; rfl

/-- **C82** `im.entropy((x, y, …), approach="ordinal", embedding_dim=d)` of tie-free series is the Shannon entropy of the tuples of
simultaneous rank patterns. -/
theorem C82_joint_ordinal (h : Call W .h .ordinal a kw b) (hb : b.Valid) (cols : List (List ℝ)) (n d s : Nat) (st : Bool)
    (h1 : kw "embedding_dim" = some (.int d)) (h2 : kwOr kw "step_size" (.int 1) = .int s)
    (h3 : kwOr kw "stable" (.bool false) = .bool st) (hd : 1 ≤ d) (hd' : d ≤ 20) (hs : 1 ≤ s) (hne : cols ≠ [])
    (hl : ∀ c ∈ cols, c.length = n) (hn : (d - 1) * s < n) (ht : ∀ c ∈ cols, TieFree c d s) :
    imEntropy W [.tup (cols.map .one)] a .absent kw = .ok (entropy ((List.range (n - (d - 1) * s)).map (fun t =>
          cols.map (fun c => rankPattern ((delayVectors c d s).getD t [])))) / b.ln) := by
  rw [(e2e_h_ordinal h.name h.accepted (d := .int d) (by rw [h1]; rfl) (s := .int s) (by rw [h2]; rfl) (st := st)
    (by rw [h3]; rfl) h.base).1]
  simp only [List.map_cons, List.map_nil, PyData.toOInput, mapM_series_one]
  exact C28_joint_entropy_of_patterns W.quick cols n d s hd hd' hs hne hl hn ht st b hb

/-- **C82** A two-dimensional array in the tuple is a `TypeError` of the ordinal entropy. -/
theorem C82_joint_ordinal_two (h : Call W .h .ordinal a kw b) (vs : List KVar) (n : Nat) (hl : ∀ v ∈ vs, v.len = n) (m : Arr) (hm : .two m ∈ vs)
    (d s : PyArg) (st : Bool) (h1 : (kw "embedding_dim").bind PyVal.toArg = some d) (h2 : (kwOr kw "step_size" (.int 1)).toArg = some s)
    (h3 : kwOr kw "stable" (.bool false) = .bool st) :
    imEntropy W [.tup vs] a .absent kw = .error .typeError := by
  have hnone : vs.mapM KVar.series = none := by
    induction vs with
    | nil => simp at hm
    | cons v t ih =>
      rw [List.mapM_cons]
      rcases List.mem_cons.1 hm with h0 | h0
      · rw [← h0]; rfl
      · rw [ih (fun v hv => hl v (by simp [hv])) h0]
        cases v <;> rfl
  have hall : vs.all (fun d => decide (d.len = (vs.headD (.one [])).len)) = true :=
    (sideBySide_ok (by rintro rfl; simp at hm) hl).1
  rw [(e2e_h_ordinal h.name h.accepted h1 h2 (st := st) (by rw [h3]; rfl) h.base).1]
  simp only [List.map_cons, List.map_nil, PyData.toOInput, hnone, hall, if_true]
  simp [ordEntropy, ordInit, ordBaseInit, bind, Except.bind]

/-- **C82** Variables of different lengths in a tuple are a `ValueError`, for the kernel, nearest-neighbour, Rényi, Tsallis and ordinal
entropies. -/
theorem C82_joint_lengths (vs : List KVar) (x y : KVar) (hx : x ∈ vs) (hy : y ∈ vs) (hxy : x.len ≠ y.len) :
    (∀ h kn w, Call W .h .kernel a kw b → (kw "bandwidth").bind PyVal.toArg = some h → (kw "kernel").bind (PyVal.toKernel W.eig) = some kn →
      (kwOr kw "workers" (.int 1)).toInt = some w → imEntropy W [.tup vs] a .absent kw = .error .valueError) ∧
    (∀ v p k i, Call W .h .metric a kw b → (kwOr kw "noise_level" (.num (1 / 10 ^ 10))).toNum = some v →
      (kwOr kw "k" (.int 4)).toArg = some k → (kwOr kw "ksg_id" (.int 1)).toInt = some i → (kwOr kw "minkowski_p" .inf).toPNorm = some p →
      imEntropy W [.tup vs] a .absent kw = .error .valueError) ∧
    (∀ k q, Call W .h .renyi a kw b → (kwOr kw "k" (.int 4)).toArg = some k → (kwOr kw "alpha" .none).toArg = some q →
      imEntropy W [.tup vs] a .absent kw = .error .valueError) ∧
    (∀ k q, Call W .h .tsallis a kw b → (kwOr kw "k" (.int 4)).toArg = some k → (kwOr kw "q" .none).toArg = some q →
      imEntropy W [.tup vs] a .absent kw = .error .valueError) ∧
    (∀ d s st, Call W .h .ordinal a kw b → (kw "embedding_dim").bind PyVal.toArg = some d → (kwOr kw "step_size" (.int 1)).toArg = some s →
      (kwOr kw "stable" (.bool false)).toBool = some st → imEntropy W [.tup vs] a .absent kw = .error .valueError) := by
  have hall : vs.all (fun d => decide (d.len = (vs.headD (.one [])).len)) = false := by
    rw [Bool.eq_false_iff]
    intro h
    rw [List.all_eq_true] at h
    exact hxy ((of_decide_eq_true (h x hx)).trans (of_decide_eq_true (h y hy)).symm)
  refine ⟨fun h kn w hc h1 h2 h3 => ?_, fun v p k i hc hv h1 h2 h3 => ?_, fun k q hc h1 h2 => ?_, fun k q hc h1 h2 => ?_,
    fun d s st hc h1 h2 h3 => ?_⟩
  · rw [(e2e_h_kernel hc.name hc.accepted h1 h2 h3 hc.base).1]
    simp only [List.map_cons, List.map_nil, PyData.toKArg, kernelEntropy, kernelEntropyLocal, hall, bind, Except.bind, Bool.false_eq_true, if_false]
  · rw [(e2e_h_metric hc.name hc.accepted h1 h2 hv h3 hc.base).1]
    exact C52_joint_lengths vs x y hx hy hxy _ _ _ b
  · rw [(e2e_h_renyi hc.name hc.accepted h1 h2 hc.base).1]
    exact C64_joint_lengths _ vs x y hx hy hxy _ _ b
  · rw [(e2e_h_tsallis hc.name hc.accepted h1 h2 hc.base).1]
    exact C64_joint_lengths _ vs x y hx hy hxy _ _ b
  · rw [(e2e_h_ordinal hc.name hc.accepted h1 h2 h3 hc.base).1]
    simp only [List.map_cons, List.map_nil, PyData.toOInput, hall]
    cases hm : vs.mapM KVar.series with
    | none => simp [ordEntropy, ordInit, ordBaseInit, bind, Except.bind]
    | some cols =>
      have hv : vs = cols.map KVar.one := by
        clear hx hy hall
        induction vs generalizing cols with
        | nil => cases hm; rfl
        | cons v t ih =>
          rw [List.mapM_cons] at hm
          cases v with
          | two m => cases hm
          | one xs =>
            cases ht : t.mapM KVar.series with
            | none => rw [ht] at hm; cases hm
            | some ys => rw [ht] at hm; cases hm; rw [List.map_cons, ← ih ys ht]
      rw [hv] at hx hy
      obtain ⟨c, hc1, rfl⟩ := List.mem_map.1 hx
      obtain ⟨c', hc2, rfl⟩ := List.mem_map.1 hy
      exact (C29_arguments W.quick [.tup cols] ⟨d, s, st⟩ b (.inr (.inr (.inr (.inl ⟨cols, rfl, c, hc1, c', hc2, hxy⟩))))).1

/-- **C85** Joint nearest-neighbour entropy with noise: the noise-free entropy of the joint samples, to every number of which its own draw
times the level has been added. -/
theorem C85_joint_entropy (hc : Call W .h .metric a kw b) (vs : List KVar) (hne : vs ≠ []) (n : Nat) (hl : ∀ v ∈ vs, v.len = n)
    (v : ℝ) (h0 : 0 ≤ v) (p : PNorm) (k : PyArg) (i : Int)
    (hv : (kwOr kw "noise_level" (.num (1 / 10 ^ 10))).toNum = some v) (h1 : (kwOr kw "k" (.int 4)).toArg = some k)
    (h2 : (kwOr kw "ksg_id" (.int 1)).toInt = some i) (h3 : (kwOr kw "minkowski_p" .inf).toPNorm = some p) :
    imEntropy W [.tup vs] a .absent kw =
      imEntropy W [.ofKVar (noisyCond W v 0 (sideBySide n vs))] a .absent (kw.set "noise_level" (.int 0)) := by
  rw [C82_joint_metric hc vs hne n hl v p k i hv h1 h2 h3]
  exact C85_entropy hc v h0 p k i hv h1 h2 h3 _

example := C82_joint_kernel (W := demo) (b := .e) (call "kernel", [("bandwidth", .num 1), ("kernel", .str "box")])
  [.one [0, 1, 3], .two ⟨2, [[0, 1], [1, 1], [3, 0]]⟩] (by simp) 3 (by simp [KVar.len]) (.num 1) .box 1 (by kw)
  (by simp [kwList, List.lookup, PyVal.toKernel]) rfl
example := C85_joint_entropy (W := demo) (b := .e) (call "metric", [("noise_level", .num 1), ("k", .int 2)])
  [.one [0, 1, 3, 2], .two ⟨2, [[0, 1], [1, 1], [3, 0], [2, 2]]⟩] (by simp) 4 (by simp [KVar.len]) 1 zero_le_one .inf (.int 2) 1 (by kw) (by kw) rfl (by kw)
example := C82_joint_renyi (W := demo) (b := .e) (call "renyi", [("alpha", .num 2)])
  [.one [0, 1, 3, 2], .two ⟨2, [[0, 1], [1, 1], [3, 0], [2, 2]]⟩] (by simp) 4 (by simp [KVar.len]) (.int 4) (.num 2) (by kw) (by kw)
example := C82_joint_tsallis (W := demo) (b := .e) (call "tsallis", [("q", .num 2)])
  [.one [0, 1, 3, 2], .two ⟨2, [[0, 1], [1, 1], [3, 0], [2, 2]]⟩] (by simp) 4 (by simp [KVar.len]) (.int 4) (.num 2) (by kw) (by kw)
example := C82_joint_ordinal (W := demo) (b := .e) (call "ordinal", [("embedding_dim", .int 2)]) trivial [[1, 2, 0], [2, 1, 3]] 3 2 1 false
  rfl rfl rfl (by norm_num) (by norm_num) (by norm_num) (by simp) (by simp) (by norm_num)
  (by simp only [List.mem_cons, List.not_mem_nil, or_false, forall_eq_or_imp, forall_eq]; constructor <;> · unfold TieFree delayVectors; norm_num [List.range_succ])
example := C82_joint_ordinal_two (W := demo) (b := .e) (call "ordinal", [("embedding_dim", .int 2)])
  [.one [0, 1, 3], .two ⟨2, [[0, 1], [1, 1], [3, 0]]⟩] 3 (by simp [KVar.len]) _ (List.mem_cons_of_mem _ (List.mem_singleton_self _)) (.int 2) (.int 1) false rfl rfl rfl
example := (C82_joint_lengths (W := demo) (a := .str "renyi") (kw := kwList [("alpha", .num 2)]) (b := .e) [.one [0, 1, 3], .one [1]] (.one [0, 1, 3]) (.one [1])
  (by simp) (by simp) (by simp [KVar.len])).2.2.1 (.int 4) (.num 2) (call "renyi", [("alpha", .num 2)]) (by kw) (by kw)

end Verif
