import Verif.Props.NumbersLit
import Verif.Props.EndToEndBaseEx
import Verif.Props.EndToEndEffectiveEx

/-!
# C89: concrete calls that meet the hypotheses
-/

set_option linter.unusedSimpArgs false

namespace Verif

open Spec

theorem withKw_kwList (l : List (String × PyVal)) (j : String) (v : PyVal) : withKw (kwList l) j v = kwList ((j, v) :: l) := by
  funext k
  by_cases h : k = j
  · subst h; simp [withKw, kwList, List.lookup]
  · simp only [withKw, kwList, List.lookup_cons, if_neg h]
    rw [show (k == j) = false by simpa using h]

theorem num_names (s : String) {k : Kind} {f : Fam} (h : asciiLower.run s ∈ approachNames k f) : Names demo.lower k (.str s) f := ⟨s, rfl, h⟩

/-- a kernel entropy is in the modelled fragment -/
theorem num_kernel_modelled (data : List PyData) (v : PyVal) (p : PyArg) (hv : v.toArg = some p) :
    PubFn.entropy.Modelled demo data (.str "kernel") .absent (kwList [("bandwidth", v), ("kernel", .str "box")]) := by
  have hc : Call demo .h .kernel (.str "kernel") (kwList [("bandwidth", v), ("kernel", .str "box")]) .e := 
    demoCall "kernel" _ (by decide +kernel) (by
      show ∀ n ∈ ["bandwidth", "kernel"], n ∈ acceptedKw (.str "e") ⟨.h, .kernel⟩
      decide +kernel) (by kw)
  refine modelled_of (r := kernelEntropy (data.map PyData.toKArg) ⟨p, .box, resolveWorkers demo.cpu 1⟩ .e) fun other => (e2e_h_kernel (W := { demo with other := other }) (callO hc other).name (callO hc other).accepted (h := p) (kn := .box) (w := 1) (by simp [kwList, List.lookup, hv])
    (by simp [kwList, List.lookup, PyVal.toKernel]) (by simp [kwOr, kwList, List.lookup, PyVal.toInt]) (callO hc other).base).1

/-- the kernel entropy of integers and of the same numbers as floats, of one sequence and of two jointly -/
example := C89_int_data (W := demo) (cond := .absent) .entropy (num_names "kernel" (f := .kernel) (by decide +kernel)) (by decide) (num_kernel_modelled [.ints [1, 4, 2]] (.num 1) _ rfl)
example := C89_int_data (W := demo) (cond := .absent) .entropy (num_names "kernel" (f := .kernel) (by decide +kernel)) (by decide)
  (num_kernel_modelled [.intTup [[1, 4, 2], [0, 3, 0]]] (.num 1) _ rfl)
example := C89_int_local (W := demo) (kw := kwList [("bandwidth", .num 1), ("kernel", .str "box")]) (demoAsks_mi (.ints [1, 4, 2]) (.ints [0, 3, 0]))
  (num_names "kernel" (f := .kernel) (by decide +kernel)) (by decide)
example {G : Type} (E : TestEnv G) (g : G) := C89_int_test (W := demo) (kw := kwList [("bandwidth", .num 1), ("kernel", .str "box")]) E (some (.int 10)) none g
  (demoAsks_mi (.ints [1, 4, 2]) (.ints [0, 3, 0])) (num_names "kernel" (f := .kernel) (by decide +kernel)) (by decide)
example {G : Type} (E : TestEnv G) (g : G) := C89_int_effective (W := demo) (kw := kwList [("k", .int 2)]) E none g
  (demoAsks_te (.ints [1, 4, 2, 5, 1]) (.ints [0, 3, 0, 1, 2])) (num_names "metric" (f := .metric) (by decide +kernel)) (by decide)

/-- `bandwidth=1` and `bandwidth=1.0` -/
example := C89_int_param (W := demo) (cond := .absent) (data := [.reals [1, 4, 2]]) (key := "bandwidth") (n := 1) (kw := kwList [("kernel", .str "box")]) .entropy (by decide)
  (by rw [withKw_kwList]; exact num_kernel_modelled _ (.int 1) _ rfl)
/-- `base=2` and `base=2.0` -/
example := C89_int_param (W := demo) (cond := .absent) (data := [.ints [1, 1, 2]]) (key := "base") (n := 2) (kw := kwList []) .entropy (by decide)
  (by
    rw [withKw_kwList]
    exact modelled_of fun other => C82_entropy (W := { demo with other := other }) .millerMadow (by simp [simpleFams]) (b := .num 2)
      (callO (call "MM", [("base", .int 2)]) other) (by norm_num [Base.Std]) [1, 1, 2] (by simp))
example := C89_int_param_local (W := demo) (key := "bandwidth") (n := 1) (kw := kwList [("kernel", .str "box")]) (by decide) (demoAsks_mi (.ints [1, 4, 2]) (.ints [0, 3, 0]))
  (num_names "kernel" (f := .kernel) (by decide +kernel))
example {G : Type} (E : TestEnv G) (g : G) := C89_int_param_test (W := demo) (key := "alpha") (n := 2) (kw := kwList []) E (some (.int 10)) none g (by decide)
  (demoAsks_mi (.ints [1, 4, 2]) (.ints [0, 3, 0])) (num_names "renyi" (f := .renyi) (by decide +kernel))
example {G : Type} (E : TestEnv G) (g : G) := C89_int_param_effective (W := demo) (key := "noise_level") (n := 0) (kw := kwList []) E none g (by decide)
  (demoAsks_te (.ints [1, 4, 2]) (.ints [0, 3, 0])) (num_names "metric" (f := .metric) (by decide +kernel))

theorem num_only {k : Kind} {f : Fam} (l : List (String × PyVal)) (h : ∀ n ∈ l.map Prod.fst, n ∈ acceptedKw (.str "e") ⟨k, f⟩) :
    Only (acceptedKw demo.b0 ⟨k, f⟩) (kwList l) := fun n hn => h n (lookup_mem_fst hn)

/-- bits, nats, and a float base -/
example := C89_base (W := demo) (kw := kwList [("base", .int 2)]) (num_names "discrete" (by decide +kernel)) (num_only _ (by decide +kernel)) rfl
  (.inr ⟨2, .inr ⟨2, rfl, by norm_num⟩, by norm_num, by norm_num, rfl⟩) [1, 1, 2] (by simp)
example := C89_base (W := demo) (kw := kwList [("base", .str "e")]) (num_names "discrete" (by decide +kernel)) (num_only _ (by decide +kernel)) rfl
  (.inl ⟨rfl, rfl⟩) [1, 1, 2] (by simp)
example := C89_bayes (W := demo) (kw := kwList [("base", .str "e"), ("alpha", .num (1 / 2)), ("K", .int 5)]) (num_names "bayes" (by decide +kernel))
  (num_only _ (by decide +kernel)) rfl (.inl ⟨rfl, rfl⟩) rfl (.inl rfl) (by norm_num) 5 (by norm_num) rfl [1, 1, 2] (by simp)
/-- the maximum norm and the Manhattan norm -/
example := C89_norm (W := demo) (kw := kwList [("base", .str "e"), ("minkowski_p", .inf), ("k", .int 1), ("ksg_id", .int 1), ("noise_level", .int 0)])
  (num_names "metric" (by decide +kernel)) (num_only _ (by decide +kernel)) rfl (.inl ⟨rfl, rfl⟩) (.one [0, 3]) 2 ⟨rfl, KVar.wf_one _, by decide⟩
  rfl (.inl ⟨rfl, rfl⟩) 1 (by decide) (by decide) rfl rfl rfl _ (fun _ ht => two_isKth _ ht)
example := C89_norm (W := demo) (kw := kwList [("base", .str "e"), ("minkowski_p", .int 1), ("k", .int 1), ("ksg_id", .int 1), ("noise_level", .int 0)])
  (num_names "metric" (by decide +kernel)) (num_only _ (by decide +kernel)) rfl (.inl ⟨rfl, rfl⟩) (.one [0, 3]) 2 ⟨rfl, KVar.wf_one _, by decide⟩
  rfl (.inr ⟨1, .inr ⟨1, rfl, by norm_num⟩, le_rfl, rfl⟩) 1 (by decide) (by decide) rfl rfl rfl _ (fun _ ht => two_isKth _ ht)
/-- `bandwidth=None`, `bandwidth="1"`, `bandwidth=0` -/
example := C89_not_positive (W := demo) (cond := .absent) (key := "bandwidth") (f := .kernel) .entropy (num_names "kernel" (by decide +kernel)) rfl rfl (.inl rfl)
  (num_kernel_modelled [.ints [1, 4, 2]] .none _ rfl)
example := C89_not_positive (W := demo) (cond := .absent) (key := "bandwidth") (f := .kernel) .entropy (num_names "kernel" (by decide +kernel)) rfl rfl (.inr (.inl ⟨_, rfl⟩))
  (num_kernel_modelled [.ints [1, 4, 2]] (.str "1") _ rfl)
example := C89_not_positive (W := demo) (cond := .absent) (key := "bandwidth") (f := .kernel) .entropy (num_names "kernel" (by decide +kernel)) rfl rfl
  (.inr (.inr ⟨0, .inl rfl, le_rfl⟩)) (num_kernel_modelled [.ints [1, 4, 2]] (.num 0) _ rfl)

end Verif
