import Verif.Model.VecTE
import Verif.Props.TE3

/-!
# Lemmas: the embedding commutes with maps of the samples
-/

namespace Verif

open Spec

theorem except_map_bind {ε α β γ : Type} (x : Except ε α) (f : α → β) (g : β → Except ε γ) :
    (x.map f).bind g = x.bind (fun a => g (f a)) := by cases x <;> rfl

theorem except_bind_map {ε α β γ : Type} (x : Except ε α) (f : α → Except ε β) (g : β → γ) :
    (x.bind f).map g = x.bind (fun a => (f a).map g) := by cases x <;> rfl

theorem npIndex_map {α β : Type} (f : α → β) (l : List α) (i : Int) : npIndex (l.map f) i = (npIndex l i).map f := by
  unfold npIndex
  simp only [List.length_map, List.getElem?_map]
  generalize (if i < 0 then i + (l.length : Int) else i) = j
  by_cases h : j < 0
  · rw [if_pos h, if_pos h]; rfl
  · rw [if_neg h, if_neg h]
    cases l[j.toNat]? <;> rfl

theorem mapM_except_map {ε α β γ : Type} (l : List α) (F : α → Except ε β) (f : β → γ) :
    l.mapM (fun a => (F a).map f) = (l.mapM F).map (List.map f) := by
  induction l with
  | nil => rfl
  | cons a l ih =>
    simp only [List.mapM_cons, bind, pure, ih]
    cases F a with
    | error e => rfl
    | ok b =>
      cases l.mapM F <;> rfl

theorem npIndex2_map {α β : Type} (f : α → β) (l : List α) (idx : List (List Int)) :
    npIndex2 (l.map f) idx = (npIndex2 l idx).map (List.map (List.map f)) := by
  unfold npIndex2
  rw [← mapM_except_map]
  congr 1
  funext r
  rw [← mapM_except_map]
  congr 1
  funext i
  exact npIndex_map f l i

/-- componentwise map of the sliced data -/
def TESlices.mapS {α β : Type} (f g h : α → β) (s : TESlices α) : TESlices β :=
  { src := s.src.map (List.map f), dest := s.dest.map (List.map g), fut := s.fut.map (List.map g),
    cond := s.cond.map (List.map (List.map h)) }

theorem srcDestSlices_map {α β : Type} (f g : α → β) (source dest : List α) (a b st md : Int) (rnd : SrcRandom) :
    srcDestSlices (source.map f) (dest.map g) a b st md rnd = (srcDestSlices source dest a b st md rnd).map
      (fun r => (r.1.map (List.map g), r.2.1.map (List.map g), r.2.2.1.map (List.map f), r.2.2.2)) := by
  unfold srcDestSlices
  by_cases hr : rnd.permute.isSome ∧ rnd.resample.isSome
  · rw [if_pos hr, if_pos hr]; rfl
  · rw [if_neg hr, if_neg hr]
    simp only [npIndex2_map, List.length_map, bind, except_map_bind, except_bind_map]
    rfl

theorem teObservations_map {α β : Type} (f g h : α → β) (source dest : List α) (a b st : PyArg) (rnd : SrcRandom) :
    teObservations (source.map f) (dest.map g) a b st rnd = (teObservations source dest a b st rnd).map (TESlices.mapS f g h) := by
  have key : ∀ st : PyArg, (if [a, b, st].all PyArg.posInt = false then (Except.error Exc.valueError : Except Exc (TESlices β))
      else if ((source.map f).length : Int) ≤ max b.val a.val * st.val then .error .valueError
      else do
        let s ← srcDestSlices (source.map f) (dest.map g) a.val b.val st.val (max b.val a.val * st.val) rnd
        pure { src := s.2.2.1, dest := s.2.1, fut := s.1 }) = Except.map (TESlices.mapS f g h)
      (if [a, b, st].all PyArg.posInt = false then (Except.error Exc.valueError : Except Exc (TESlices α))
      else if (source.length : Int) ≤ max b.val a.val * st.val then .error .valueError
      else do
        let s ← srcDestSlices source dest a.val b.val st.val (max b.val a.val * st.val) rnd
        pure { src := s.2.2.1, dest := s.2.1, fut := s.1 }) := by
    intro st
    rw [srcDestSlices_map, List.length_map]
    split_ifs
    · rfl
    · rfl
    · simp only [bind, except_map_bind, except_bind_map]
      rfl
  cases st with
  | other => rfl
  | int n => exact key _
  | num x => exact key _

theorem cteObservations_map {α β : Type} (f g h : α → β) (source dest cond : List α) (a b c st : PyArg) (rnd : SrcRandom) :
    cteObservations (source.map f) (dest.map g) (cond.map h) a b c st rnd =
      (cteObservations source dest cond a b c st rnd).map (TESlices.mapS f g h) := by
  unfold cteObservations
  simp only [srcDestSlices_map, List.length_map]
  split_ifs
  · rfl
  · rfl
  · simp only [bind, except_map_bind, except_bind_map, npIndex2_map]
    rfl

theorem pySlice_map {α β : Type} (f : α → β) (l : List α) (a b : Option Int) :
    pySlice (l.map f) a b = (pySlice l a b).map f := by
  unfold pySlice
  simp only [List.length_map, List.map_take, List.map_drop]

theorem teInit_map {α β : Type} (f g : α → β) (source dest : List α) (pt o : Option PyArg) (st : PyArg) :
    teInit (source.map f) (dest.map g) pt o st =
      (teInit source dest pt o st).map (fun d => (d.1.map f, d.2.map g)) := by
  unfold teInit
  simp only [List.length_map, pySlice_map]
  split
  · rfl
  · split_ifs
    · rfl
    · split
      · split_ifs <;> first | rfl | (cases st <;> rfl)
      · rfl

theorem cteInit_map {α β : Type} (f g h : α → β) (source dest : List α) (cond : Option (List α)) (pt o : Option PyArg) :
    cteInit (source.map f) (dest.map g) (cond.map (List.map h)) pt o =
      (cteInit source dest cond pt o).map (fun d => (d.1.map f, d.2.1.map g, d.2.2.map h)) := by
  unfold cteInit
  cases cond with
  | none => rfl
  | some z =>
    simp only [List.length_map, Option.map_some]
    split_ifs
    · rfl
    · split
      · split_ifs <;> rfl
      · rfl

theorem flatten_map_single {α : Type} (r : List α) : (r.map (fun x => [x])).flatten = r := by
  induction r with
  | nil => rfl
  | cons a r ih => simp [ih]

theorem flatSlices_single {α : Type} (s : TESlices α) :
    flatSlices (s.mapS (fun x => [x]) (fun x => [x]) (fun x => [x])) = s := by
  have h : ∀ l : List (List α), (l.map (List.map (fun x => [x]))).map List.flatten = l := by
    intro l
    rw [List.map_map]
    conv_rhs => rw [← List.map_id l]
    exact List.map_congr_left fun r _ => flatten_map_single r
  rcases s with ⟨a, b, c, d⟩
  cases d <;> simp [flatSlices, TESlices.mapS, h, flatten_map_single]

theorem teObservationsVec_single {α : Type} (source dest : List α) (a b st : PyArg) (rnd : SrcRandom) :
    teObservationsVec (source.map (fun x => [x])) (dest.map (fun x => [x])) a b st rnd = teObservations source dest a b st rnd := by
  unfold teObservationsVec
  rw [teObservations_map _ _ (fun x => [x])]
  cases teObservations source dest a b st rnd with
  | error e => rfl
  | ok s => simp only [Except.map, bind, Except.bind, pure, Except.pure, flatSlices_single]

theorem cteObservationsVec_single {α : Type} (source dest cond : List α) (a b c st : PyArg) (rnd : SrcRandom) :
    cteObservationsVec (source.map (fun x => [x])) (dest.map (fun x => [x])) (cond.map (fun x => [x])) a b c st rnd =
      cteObservations source dest cond a b c st rnd := by
  unfold cteObservationsVec
  rw [cteObservations_map]
  cases cteObservations source dest cond a b c st rnd with
  | error e => rfl
  | ok s => simp only [Except.map, bind, Except.bind, pure, Except.pure, flatSlices_single]

theorem jitterVec_single (e : Option (Nat → ℝ)) (xs : List ℝ) :
    jitterVec (e.map (fun e t _ => e t)) (xs.map (fun x => [x])) = (jitter1 e xs).map (fun x => [x]) := by
  cases e with
  | none => rfl
  | some e =>
    simp only [jitterVec, jitter1, Option.map_some]
    apply List.ext_getElem?
    intro i
    simp only [List.getElem?_mapIdx, List.getElem?_map]
    cases xs[i]? <;> rfl

end Verif
