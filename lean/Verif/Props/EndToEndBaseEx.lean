import Verif.Props.EndToEndBase
import Verif.Props.EndToEndEx

/-!
# C86: concrete calls that meet the hypotheses
-/

namespace Verif

open Spec

theorem withBase_kwList (l : List (String × PyVal)) (v : PyVal) : withBase (kwList l) v = kwList (("base", v) :: l) := by
  funext k
  by_cases h : k = "base"
  · subst h; simp [withBase, kwList, List.lookup]
  · simp only [withBase, kwList, List.lookup_cons, if_neg h]
    rw [show (k == "base") = false by simpa using h]

/-- the value the model gives does not mention the code outside the model -/
theorem modelled_of {fn : PubFn} {W : World} {data : List PyData} {a : PyName} {cond : CondKw PyData} {kw : Kw} {r : Except Exc ℝ}
    (h : ∀ other, fn.run { W with other := other } data a cond kw = r) : fn.Modelled W data a cond kw := by
  intro other
  rw [h other]
  exact (h W.other).symm

/-- well-formed calls do not depend on the code outside the model -/
theorem callO {k : Kind} {f : Fam} {a : PyName} {kw : Kw} {b : Base} (h : Call demo k f a kw b) (other : Est → Except Exc ℝ) :
    Call { demo with other := other } k f a kw b := ⟨h.name, h.accepted, h.base⟩

/-- one approach has the name -/
theorem not_tsallis {k : Kind} {s : String} {f : Fam} (h : asciiLower.run s ∈ approachNames k f) (hf : f ≠ .tsallis) :
    ¬ Names demo.lower k (.str s) .tsallis := fun h' => hf (Names.unique (L := asciiLower) ⟨s, rfl, h⟩ h')

theorem ex_mm : PubFn.entropy.Modelled demo [.ints [1, 1, 2]] (.str "MM") .absent (withBase (kwList []) (.str "e")) := by
  rw [withBase_kwList]
  exact modelled_of fun other => C82_entropy (W := { demo with other := other }) .millerMadow (by simp [simpleFams]) (b := .e)
    (callO (call "MM", [("base", .str "e")]) other) trivial [1, 1, 2] (by simp)

/-- the Miller–Madow entropy in bits -/
example := C86_base_change (W := demo) .entropy _ _ _ (kwList []) (.int 2) 2 (.inr ⟨2, rfl, by norm_num⟩) (by norm_num) (by norm_num)
  (by simp [PubFn.kind]) (not_tsallis (f := .millerMadow) (by decide +kernel) (by decide)) ex_mm
/-- … and in the base 1/2 -/
example := C86_base_change (W := demo) .entropy _ _ _ (kwList []) (.num (1 / 2)) (1 / 2) (.inl rfl) (by norm_num) (by norm_num)
  (by simp [PubFn.kind]) (not_tsallis (f := .millerMadow) (by decide +kernel) (by decide)) ex_mm

theorem ex_mi : PubFn.mutualInformation.Modelled demo [.ints [1, 1, 2], .ints [0, 3, 0]] (.str "discrete") .absent (withBase (kwList []) (.str "e")) := by
  rw [withBase_kwList]
  exact modelled_of fun other => C82_mi_two (W := { demo with other := other }) (b := .e) (callO (call "discrete", [("base", .str "e")]) other) trivial rfl (by kw)
    [1, 1, 2] [0, 3, 0] rfl (by simp) (by norm_num)

/-- mutual information in bits and in decimal digits -/
example := C86_two_bases (W := demo) .mutualInformation _ _ _ (kwList []) (.int 2) (.num 10) 2 10 (.inr ⟨2, rfl, by norm_num⟩) (.inl rfl)
  (by norm_num) (by norm_num) (not_tsallis (f := .discrete) (by decide +kernel) (by decide)) ex_mi

theorem ex_te : PubFn.transferEntropy.Modelled demo [.ints [1, 1, 2, 0], .ints [0, 3, 0, 1]] (.str "discrete") .absent
    (withBase (kwList [("src_hist_len", .int 2)]) (.str "e")) := by
  rw [withBase_kwList]
  exact modelled_of fun other => C82_te (W := { demo with other := other }) (b := .e) (cond := .absent) (l := 2) (k := 1) (s := 1)
    (callO (call "discrete", [("base", .str "e"), ("src_hist_len", .int 2)]) other) trivial rfl ⟨by kw, by kw, by kw, by kw, by kw⟩
    (by norm_num) (by norm_num) (by norm_num) [1, 1, 2, 0] [0, 3, 0, 1] (by norm_num) rfl (by norm_num)

/-- transfer entropy with a source history of two steps, in bits -/
example := C86_base_change (W := demo) .transferEntropy _ _ _ (kwList [("src_hist_len", .int 2)]) (.int 2) 2 (.inr ⟨2, rfl, by norm_num⟩) (by norm_num) (by norm_num)
  (by simp [PubFn.kind]) (not_tsallis (f := .discrete) (by decide +kernel) (by decide)) ex_te

/-- a Tsallis call is inside the model whatever the data -/
theorem ex_tsallis (vs : KVar) (q : PyVal) (o : PyArg) (hq : q.toArg = some o) : PubFn.entropy.Modelled demo [.ofKVar vs] (.str "Tsallis") .absent
    (withBase (kwList [("q", q)]) (.str "e")) := by
  rw [withBase_kwList]
  have hn : Names demo.lower .h (.str "Tsallis") .tsallis := ⟨"Tsallis", rfl, by decide +kernel⟩
  refine modelled_of fun other => (e2e_h_tsallis (W := { demo with other := other }) (b := .e) (k := .int 4) (q := o) hn ?_ ?_ ?_ ?_).1
  · intro n hn
    exact (by decide : ∀ n ∈ ["base", "q"], n ∈ ["k", "q", "base"]) n (lookup_mem_fst hn)
  · simp [kwOr, kwList, List.lookup, PyVal.toArg]
  · simpa [kwOr, kwList, List.lookup] using hq
  · simp [kwOr, kwList, List.lookup, PyVal.toBase]

example := C86_tsallis_one (W := demo) .entropy [.ofKVar (.one [0, 1, 3, 7, 8, 2])] (.str "Tsallis") .absent (kwList [("q", .int 1)]) (.int 2) 2
  (.inr ⟨2, rfl, by norm_num⟩) (by norm_num) (by norm_num) ⟨"Tsallis", rfl, by decide +kernel⟩ ⟨.int 1, by simp [kwList, List.lookup], .inr ⟨1, rfl, by norm_num⟩⟩
  (ex_tsallis _ _ _ rfl)
example := C86_tsallis_ignores_base (W := demo) .entropy [.ofKVar (.one [0, 1, 3, 7, 8, 2])] (.str "Tsallis") .absent (kwList [("q", .num 2)]) (.int 10) 10
  (.inr ⟨10, rfl, by norm_num⟩) ⟨"Tsallis", rfl, by decide +kernel⟩
  (by simp [kwList, List.lookup, IsNumber]) (ex_tsallis _ _ _ rfl)

end Verif
