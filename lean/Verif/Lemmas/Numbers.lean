import Verif.Spec.Numbers
import Verif.Model.EndToEndDiv
import Verif.Model.EndToEndEffective
import Verif.Model.EndToEndLocal

/-!
# Integer data and float data: estimators
-/

namespace Verif

open Spec

theorem num_toSeries (d : PyData) : d.asFloat.toSeries = d.toSeries := by cases d <;> rfl
theorem num_toKVar (d : PyData) : d.asFloat.toKVar = d.toKVar := by cases d <;> rfl
theorem num_toKArg (d : PyData) : d.asFloat.toKArg = d.toKArg := by cases d <;> rfl
theorem num_series_map (cols : List (List Int)) :
    (cols.map (fun xs => KVar.one (xs.map (fun z : Int => (z : ℝ))))).mapM KVar.series = some (cols.map asReals) := by
  induction cols with
  | nil => rfl
  | cons c cs ih =>
    rw [List.map_cons, List.mapM_cons, ih]
    rfl
theorem num_toOInput (d : PyData) : d.asFloat.toOInput = d.toOInput := by
  cases d with
  | intTup cols =>
    show (match (cols.map (fun xs => KVar.one (xs.map (fun z : Int => (z : ℝ))))).mapM KVar.series with
      | some cols => OInput.tup cols
      | none => _) = _
    rw [num_series_map]
    rfl
  | _ => rfl

theorem num_isArrayLike (d : PyData) : d.asFloat.isArrayLike = d.isArrayLike := by cases d <;> rfl

theorem num_mapM {α : Type} {conv : PyData → Option α} (h : ∀ d, conv (PyData.asFloat d) = conv d) (l : List PyData) :
    (l.map PyData.asFloat).mapM conv = l.mapM conv := by
  induction l with
  | nil => rfl
  | cons a l ih => simp only [List.map_cons, List.mapM_cons, h, ih]

theorem num_map {α : Type} {conv : PyData → α} (h : ∀ d, conv (PyData.asFloat d) = conv d) (l : List PyData) :
    (l.map PyData.asFloat).map conv = l.map conv := by
  simp [List.map_map, Function.comp_def, h]

/-- the estimator of the same data as floats -/
def Est.asFloat (e : Est) : Est := { e with data := e.data.map PyData.asFloat, cond := e.cond.map PyData.asFloat }

theorem num_pair {α : Type} {conv : PyData → Option α} (h : ∀ d, conv (PyData.asFloat d) = conv d) (e : Est) :
    e.asFloat.pair conv = e.pair conv := by
  obtain ⟨cls, data, cond, par⟩ := e
  unfold Est.pair Est.asFloat
  match data with
  | [] => rfl
  | [_] => rfl
  | [x, y] => simp only [List.map_cons, List.map_nil, h]
  | _ :: _ :: _ :: _ => rfl

theorem num_get (e : Est) {α : Type} (k : String) (conv : PyVal → Option α) : e.asFloat.get k conv = e.get k conv := rfl
theorem num_kde (W : World) (e : Est) : e.asFloat.kde W = e.kde W := rfl
theorem num_ksg (e : Est) : e.asFloat.ksg = e.ksg := rfl
theorem num_ord (e : Est) : e.asFloat.ord = e.ord := rfl
theorem num_ordTe (e : Est) : e.asFloat.ordTe = e.ordTe := rfl
theorem num_te (e : Est) : e.asFloat.te = e.te := rfl
theorem num_cls (e : Est) : e.asFloat.cls = e.cls := rfl
theorem num_data (e : Est) : e.asFloat.data = e.data.map PyData.asFloat := rfl
theorem num_cond (e : Est) : e.asFloat.cond = e.cond.map PyData.asFloat := rfl

theorem num_bind_cond {α : Type} (c : Option PyData) (f : PyData → Option α) : ((c.map PyData.asFloat).bind f) = c.bind (fun z => f z.asFloat) := by
  cases c <;> rfl

macro "num_simp" d:ident : tactic => `(tactic| (
  simp only [$d:ident, num_get, num_kde, num_ksg, num_ord, num_ordTe, num_te, num_cls, num_data, num_cond, num_mapM num_toSeries, num_mapM num_toKVar,
    num_map num_toKArg, num_map num_toOInput, num_pair num_toSeries, num_pair num_toKVar, Option.bind_eq_bind, num_bind_cond, num_toSeries, num_toKVar,
    num_toKArg, num_toOInput]))

section
variable (W : World) (e : Est) (hf : e.cls.fam ∈ continuousFams)
include hf

theorem num_entropy : e.asFloat.entropy W = e.entropy W := by
  obtain ⟨⟨kind, fam⟩, data, cond, par⟩ := e
  simp only [continuousFams, List.mem_cons, List.not_mem_nil, or_false] at hf
  rcases hf with rfl | rfl | rfl | rfl | rfl <;> num_simp Est.entropy

theorem num_mi : e.asFloat.mi W = e.mi W := by
  obtain ⟨⟨kind, fam⟩, data, cond, par⟩ := e
  simp only [continuousFams, List.mem_cons, List.not_mem_nil, or_false] at hf
  rcases hf with rfl | rfl | rfl | rfl | rfl <;> num_simp Est.mi

theorem num_cmi : e.asFloat.cmi W = e.cmi W := by
  obtain ⟨⟨kind, fam⟩, data, cond, par⟩ := e
  simp only [continuousFams, List.mem_cons, List.not_mem_nil, or_false] at hf
  rcases hf with rfl | rfl | rfl | rfl | rfl <;> num_simp Est.cmi

theorem num_teVal : e.asFloat.teVal W = e.teVal W := by
  obtain ⟨⟨kind, fam⟩, data, cond, par⟩ := e
  simp only [continuousFams, List.mem_cons, List.not_mem_nil, or_false] at hf
  rcases hf with rfl | rfl | rfl | rfl | rfl <;> num_simp Est.teVal

theorem num_cteVal : e.asFloat.cteVal W = e.cteVal W := by
  obtain ⟨⟨kind, fam⟩, data, cond, par⟩ := e
  simp only [continuousFams, List.mem_cons, List.not_mem_nil, or_false] at hf
  rcases hf with rfl | rfl | rfl | rfl | rfl <;> num_simp Est.cteVal

theorem num_entropyLocal : e.asFloat.entropyLocal W = e.entropyLocal W := by
  obtain ⟨⟨kind, fam⟩, data, cond, par⟩ := e
  simp only [continuousFams, List.mem_cons, List.not_mem_nil, or_false] at hf
  rcases hf with rfl | rfl | rfl | rfl | rfl <;> num_simp Est.entropyLocal

theorem num_miLocals : e.asFloat.miLocals W = e.miLocals W := by
  obtain ⟨⟨kind, fam⟩, data, cond, par⟩ := e
  simp only [continuousFams, List.mem_cons, List.not_mem_nil, or_false] at hf
  rcases hf with rfl | rfl | rfl | rfl | rfl <;> num_simp Est.miLocals

theorem num_cmiLocals : e.asFloat.cmiLocals W = e.cmiLocals W := by
  obtain ⟨⟨kind, fam⟩, data, cond, par⟩ := e
  simp only [continuousFams, List.mem_cons, List.not_mem_nil, or_false] at hf
  rcases hf with rfl | rfl | rfl | rfl | rfl <;> num_simp Est.cmiLocals

theorem num_teLocals : e.asFloat.teLocals W = e.teLocals W := by
  obtain ⟨⟨kind, fam⟩, data, cond, par⟩ := e
  simp only [continuousFams, List.mem_cons, List.not_mem_nil, or_false] at hf
  rcases hf with rfl | rfl | rfl | rfl | rfl <;> num_simp Est.teLocals

theorem num_cteLocals : e.asFloat.cteLocals W = e.cteLocals W := by
  obtain ⟨⟨kind, fam⟩, data, cond, par⟩ := e
  simp only [continuousFams, List.mem_cons, List.not_mem_nil, or_false] at hf
  rcases hf with rfl | rfl | rfl | rfl | rfl <;> num_simp Est.cteLocals

theorem num_miObj : e.asFloat.miObj W = e.miObj W := by
  obtain ⟨⟨kind, fam⟩, data, cond, par⟩ := e
  simp only [continuousFams, List.mem_cons, List.not_mem_nil, or_false] at hf
  rcases hf with rfl | rfl | rfl | rfl | rfl <;> num_simp Est.miObj

theorem num_cmiObj : e.asFloat.cmiObj W = e.cmiObj W := by
  obtain ⟨⟨kind, fam⟩, data, cond, par⟩ := e
  simp only [continuousFams, List.mem_cons, List.not_mem_nil, or_false] at hf
  rcases hf with rfl | rfl | rfl | rfl | rfl <;> num_simp Est.cmiObj

theorem num_teObj : e.asFloat.teObj W = e.teObj W := by
  obtain ⟨⟨kind, fam⟩, data, cond, par⟩ := e
  simp only [continuousFams, List.mem_cons, List.not_mem_nil, or_false] at hf
  rcases hf with rfl | rfl | rfl | rfl | rfl <;>
    (unfold Est.teObj
     simp only [num_get, num_kde, num_ksg, num_ordTe, num_te, num_cls, num_pair num_toSeries, Option.bind_eq_bind])

theorem num_cteObj : e.asFloat.cteObj W = e.cteObj W := by
  have hp : e.asFloat.pair PyData.toSeries = e.pair PyData.toSeries := num_pair num_toSeries e
  have hz : ∀ z : PyData, z.asFloat.toSeries = z.toSeries := num_toSeries
  obtain ⟨⟨kind, fam⟩, data, cond, par⟩ := e
  simp only [continuousFams, List.mem_cons, List.not_mem_nil, or_false] at hf
  cases cond with
  | none =>
    rcases hf with rfl | rfl | rfl | rfl | rfl <;> rfl
  | some z =>
    have hz := hz z
    simp only [Est.asFloat, Option.map_some] at hp ⊢
    generalize z.asFloat = z' at hz hp ⊢
    generalize data.map PyData.asFloat = data' at hp ⊢
    rcases hf with rfl | rfl | rfl | rfl | rfl
    all_goals
      have e1 : ∀ {α : Type} (fm : Fam) (k : String) (conv : PyVal → Option α), Est.get ⟨⟨kind, fm⟩, data', some z', par⟩ k conv = Est.get ⟨⟨kind, fm⟩, data, some z, par⟩ k conv := fun _ _ _ => rfl
      have e2 : ∀ fm : Fam, Est.te ⟨⟨kind, fm⟩, data', some z', par⟩ = Est.te ⟨⟨kind, fm⟩, data, some z, par⟩ := fun _ => rfl
      have e3 : ∀ fm : Fam, Est.ordTe ⟨⟨kind, fm⟩, data', some z', par⟩ = Est.ordTe ⟨⟨kind, fm⟩, data, some z, par⟩ := fun _ => rfl
      have e4 : ∀ fm : Fam, Est.kde W ⟨⟨kind, fm⟩, data', some z', par⟩ = Est.kde W ⟨⟨kind, fm⟩, data, some z, par⟩ := fun _ => rfl
      have e5 : ∀ fm : Fam, Est.ksg ⟨⟨kind, fm⟩, data', some z', par⟩ = Est.ksg ⟨⟨kind, fm⟩, data, some z, par⟩ := fun _ => rfl
      unfold Est.cteObj
      rw [e1, e1, e1, e1, e2]
      dsimp only
      iterate 5 refine congrArg _ (funext fun _ => ?_)
      rw [show ∀ {α β : Type} (x : α) (f : α → Option β), (some x >>= f) = f x from fun _ _ => rfl,
        show ∀ {α β : Type} (x : α) (f : α → Option β), (some x >>= f) = f x from fun _ _ => rfl]
      simp only [hp, hz, e1, e3, e4, e5]


end

end Verif
