import Verif.Model.MI
import Verif.Lemmas.Entropy
import Verif.Lemmas.MIn

/-! # Helper lemmas: the generic entropy combination -/

namespace Verif

open Spec

/-- An estimator class whose local values average to its global value. -/
def HEst.Consistent (est : HEst) : Prop :=
  ∀ xs : List Int, xs ≠ [] → ∃ g l, est.globalVal (mkData xs) = .ok g ∧
    est.localVals (mkData xs) = .ok l ∧ l.length = xs.length ∧ Spec.mean l = g

/-- An estimator class without local values. -/
def HEst.GlobalOnly (est : HEst) : Prop :=
  ∀ xs : List Int, xs ≠ [] → ∃ g, est.globalVal (mkData xs) = .ok g ∧
    (est.localVals (mkData xs) = .error .unsupportedOperation ∨
      est.localVals (mkData xs) = .error .theoreticalInconsistency)

theorem sum_getD (l : List ℝ) (N : Nat) (h : l.length = N) :
    ((List.range N).map (fun t => l.getD t 0)).sum = l.sum := by
  have : (List.range N).map (fun t => l.getD t (default : ℝ)) = l := col_map_range l N h
  rw [show (default : ℝ) = 0 from rfl] at this
  rw [this]

theorem sum_npSub_aux (a b : List ℝ) (h : a.length = b.length) :
    (List.zipWith (fun x y => x - y) a b).sum = a.sum - b.sum := by
  induction a generalizing b with
  | nil => cases b with
    | nil => simp
    | cons _ _ => simp at h
  | cons x a ih => cases b with
    | nil => simp at h
    | cons y b =>
      simp only [List.zipWith_cons_cons, List.sum_cons, ih b (by simpa using h)]; ring

theorem sum_range_sum (ls : List (List ℝ)) (N : Nat) (h : ∀ l ∈ ls, l.length = N) :
    ((List.range N).map (fun t => (ls.map (fun l => l.getD t 0)).sum)).sum = (ls.map List.sum).sum := by
  induction ls with
  | nil => simp
  | cons l ls ih =>
    simp only [List.map_cons, List.sum_cons]
    rw [sum_map_add', sum_getD l N (h l (by simp)), ih (fun m hm => h m (by simp [hm]))]

theorem combineH_ok (est : HEst) {N : Nat} (hN : 0 < N) (plus minus : List (DiscreteData Int))
    (hp : plus ≠ []) (L : DiscreteData Int → List ℝ) (G : DiscreteData Int → ℝ)
    (h : ∀ d, d ∈ plus ∨ d ∈ minus → est.localVals d = .ok (L d) ∧ (L d).length = N ∧
      Spec.mean (L d) = G d) :
    combineH est plus minus = .ok ((plus.map G).sum - (minus.map G).sum) := by
  have hN' : (0:ℝ) < N := by exact_mod_cast hN
  have hL : ∀ d, d ∈ plus ∨ d ∈ minus → (L d).sum = N * G d := by
    intro d hd
    obtain ⟨_, h2, h3⟩ := h d hd
    rw [Spec.mean, h2] at h3
    rw [← h3]; field_simp
  have hm : plus.mapM est.localVals = .ok (plus.map L) :=
    mapM_ok plus fun d hd => (h d (Or.inl hd)).1
  have hh : ((plus.map L).headD []).length = N := by
    cases plus with
    | nil => exact absurd rfl hp
    | cons d ds => exact (h d (by simp)).2.1
  have hs : npSumAxis0 (plus.map L) =
      .ok ((List.range N).map (fun t => ((plus.map L).map (fun l => l.getD t 0)).sum)) := by
    unfold npSumAxis0
    rw [if_pos, hh]
    rw [List.all_eq_true]
    intro l hl
    obtain ⟨d, hd, rfl⟩ := List.mem_map.1 hl
    rw [hh, (h d (Or.inl hd)).2.1]; simp
  have hfold : ∀ (ms : List (DiscreteData Int)) (acc : List ℝ), (∀ d ∈ ms, d ∈ minus) →
      acc.length = N → ∃ r, ms.foldlM (fun acc d => (do
        let l ← est.localVals d
        npSub acc l : Except Exc (List ℝ))) acc = .ok r ∧ r.length = N ∧
        r.sum = acc.sum - N * (ms.map G).sum := by
    intro ms
    induction ms with
    | nil => intro acc _ ha; exact ⟨acc, rfl, ha, by simp⟩
    | cons d ms ih =>
      intro acc hms ha
      obtain ⟨h1, h2, h3⟩ := h d (Or.inr (hms d (by simp)))
      obtain ⟨r, hr1, hr2, hr3⟩ := ih (List.zipWith (fun x y => x - y) acc (L d))
        (fun e he => hms e (by simp [he])) (by simp [ha, h2])
      refine ⟨r, ?_, hr2, ?_⟩
      · rw [List.foldlM_cons, h1]
        simp only [bind, Except.bind, npSub, ha, h2, if_true]
        exact hr1
      · rw [hr3, sum_npSub_aux _ _ (by omega), hL d (Or.inr (hms d (by simp)))]
        simp only [List.map_cons, List.sum_cons]; ring
  obtain ⟨r, hr1, hr2, hr3⟩ := hfold minus
    ((List.range N).map (fun t => ((plus.map L).map (fun l => l.getD t 0)).sum)) (fun d hd => hd) (by simp)
  unfold combineH
  simp only [hm, bind, Except.bind, hs]
  simp only [bind, Except.bind] at hr1
  rw [hr1]
  simp only []
  rw [hr2, hr3, sum_range_sum (plus.map L) N (by
    intro l hl
    obtain ⟨d, hd, rfl⟩ := List.mem_map.1 hl
    exact (h d (Or.inl hd)).2.1), List.map_map]
  have e : plus.map (List.sum ∘ L) = plus.map (fun d => (N : ℝ) * G d) :=
    List.map_congr_left fun d hd => hL d (Or.inl hd)
  rw [e, sum_map_mul']
  congr 1
  field_simp

theorem combineH_fallback (est : HEst) (plus minus : List (DiscreteData Int))
    (hp : plus ≠ []) (G : DiscreteData Int → ℝ)
    (h : ∀ d, d ∈ plus ∨ d ∈ minus → est.globalVal d = .ok (G d))
    (hu : ∀ d ∈ plus, est.localVals d = .error .unsupportedOperation ∨
      est.localVals d = .error .theoreticalInconsistency) :
    combineH est plus minus = .ok ((plus.map G).sum - (minus.map G).sum) := by
  obtain ⟨e, he, hee⟩ : ∃ e, (plus.mapM est.localVals = .error e) ∧
      (e = .unsupportedOperation ∨ e = .theoreticalInconsistency) := by
    cases plus with
    | nil => exact absurd rfl hp
    | cons d ds =>
      rw [List.mapM_cons]
      rcases hu d (by simp) with h1 | h1
      · exact ⟨_, by rw [h1]; rfl, Or.inl rfl⟩
      · exact ⟨_, by rw [h1]; rfl, Or.inr rfl⟩
  have hg1 : plus.mapM est.globalVal = .ok (plus.map G) :=
    mapM_ok _ fun d hd => h d (Or.inl hd)
  have hg2 : minus.mapM est.globalVal = .ok (minus.map G) :=
    mapM_ok _ fun d hd => h d (Or.inr hd)
  have hfold : ∀ (ms : List ℝ) (a : ℝ), ms.foldl (fun acc v => acc - v) a = a - ms.sum := by
    intro ms
    induction ms with
    | nil => simp
    | cons m ms ih => intro a; rw [List.foldl_cons, ih, List.sum_cons]; ring
  unfold combineH
  simp only [he, bind, Except.bind, hee, if_true, hg1, hg2, pure, Except.pure, hfold]

theorem hConstruct_arr1 {xs : List Int} (h : xs ≠ []) : hConstruct (.arr1 xs) = .ok (mkData xs) := by
  simp only [hConstruct, discreteHInit_arr1 h, bind, Except.bind, pure, Except.pure]

/-- integer codes of the joint rows -/
def jointCodes (n : Nat) (cols : List (List Int)) : List Int :=
  (npInverse (Spec.rows n cols)).map Int.ofNat

theorem jointCodes_length (n : Nat) (cols : List (List Int)) : (jointCodes n cols).length = n := by
  simp [jointCodes, Spec.rows]

theorem jointCodes_ne {n : Nat} (hn : 0 < n) (cols : List (List Int)) : jointCodes n cols ≠ [] := by
  intro h
  have := congrArg List.length h
  rw [jointCodes_length] at this; simp at this; omega

theorem discreteHInit_tup {cols : List (List Int)} {n : Nat} (hn : 0 < n) (hne : cols ≠ [])
    (hl : ∀ c ∈ cols, c.length = n) : discreteHInit [.tup cols] = .ok [mkData (jointCodes n cols)] := by
  have h1 : cols.all (fun d => decide (d.length = (cols.headD []).length)) = true := by
    rw [List.all_eq_true]
    intro d hd
    cases cols with
    | nil => exact absurd rfl hne
    | cons c cs => simp [hl d hd, hl c (by simp)]
  have h2 : reduceVar (.tup cols) = .ok (jointCodes n cols) := by
    simp only [reduceVar, reduceJointSpace, columnStack_ok hne hl]; rfl
  simp only [discreteHInit, entropyInit, h1, if_true, bind, Except.bind,
    List.mapM_cons, List.mapM_nil, h2, fromData_ok (jointCodes_ne hn cols), pure, Except.pure]

theorem hConstruct_tup {cols : List (List Int)} {n : Nat} (hn : 0 < n) (hne : cols ≠ [])
    (hl : ∀ c ∈ cols, c.length = n) : hConstruct (.tup cols) = .ok (mkData (jointCodes n cols)) := by
  simp only [hConstruct, discreteHInit_tup hn hne hl, bind, Except.bind, pure, Except.pure]

end Verif
