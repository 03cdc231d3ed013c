import Verif.Model.BiasMIVec
import Verif.Props.Nsb2
import Verif.Props.VecTE

/-! # Lemmas: bias-corrected mutual information of arrays of one or two dimensions -/

namespace Verif

open Spec

/-- a one-dimensional array -/
def IArr.ofInts (xs : List Int) : IArr := ⟨false, xs.map (fun x => [x])⟩

/-- integer codes of the samples -/
def arrCodes (a : IArr) : List Int := if a.two then rowCodes a.rows else a.rows.map (fun r => r.headD 0)

theorem arrCodes_length (a : IArr) : (arrCodes a).length = a.rows.length := by
  unfold arrCodes; split <;> simp [rowCodes_length]

/-- all samples have `w` components, one of them if the array is one-dimensional -/
structure IArr.Wide (a : IArr) (w : Nat) : Prop where
  pos : 0 < w
  rows : ∀ r ∈ a.rows, r.length = w
  one : a.two = false → w = 1

theorem rowCodes_same (rs : List (List Int)) : SameCounts (rowCodes rs) rs := by
  have h := sameCounts_map rs (Int.ofNat ∘ npPos rs) id (fun u hu v hv => rowCodes_inj _ hu hv)
  rw [List.map_id, ← rowCodes_eq] at h
  exact h

theorem arrCodes_same {a : IArr} {w : Nat} (h : a.Wide w) : SameCounts (arrCodes a) a.rows := by
  unfold arrCodes
  cases ht : a.two with
  | true => exact rowCodes_same _
  | false =>
    have hw := h.one ht
    subst hw
    have := sameCounts_map a.rows (fun r => r.headD 0) id (fun u hu v hv => by
      have h1 := h.rows u hu
      have h2 := h.rows v hv
      match u, v, h1, h2 with
      | [x], [y], _, _ => simp)
    rw [List.map_id] at this
    exact this

theorem hConstruct_input {a : IArr} (h : a.rows ≠ []) : hConstruct a.input = .ok (mkData (arrCodes a)) := by
  unfold IArr.input arrCodes
  cases a.two with
  | true => exact hConstruct_arr2 h
  | false => exact hConstruct_arr1 (by simpa using h)

/-- the rows side by side -/
def stackRows (N : Nat) (vs : List IArr) : List (List Int) :=
  (List.range N).map (fun t => (vs.map (fun u => u.rows.getD t [])).flatten)

theorem stackArr_ok {vs : List IArr} {N : Nat} (hne : vs ≠ []) (hl : ∀ v ∈ vs, v.rows.length = N) :
    stackArr vs = .ok (stackRows N vs) := by
  cases vs with
  | nil => exact absurd rfl hne
  | cons v rest =>
    have hv : v.rows.length = N := hl v (by simp)
    have : rest.all (fun u => decide (u.rows.length = v.rows.length)) = true := by
      rw [List.all_eq_true]; intro d hd; simp [hv, hl d (by simp [hd])]
    unfold stackArr
    simp only
    rw [if_pos this, hv]
    rfl

theorem stackRows_length (N : Nat) (vs : List IArr) : (stackRows N vs).length = N := by simp [stackRows]

theorem stackRows_ne {N : Nat} (hN : 0 < N) (vs : List IArr) : stackRows N vs ≠ [] := by
  intro h
  have := stackRows_length N vs
  rw [h] at this
  simp at this; omega

theorem hConstructTup_ok {vs : List IArr} {N : Nat} (hN : 0 < N) (hne : vs ≠ []) (hl : ∀ v ∈ vs, v.rows.length = N) :
    hConstructTup vs = .ok (mkData (rowCodes (stackRows N vs))) := by
  simp only [hConstructTup, stackArr_ok hne hl, bind, Except.bind]
  exact hConstruct_arr2 (stackRows_ne hN vs)

/-- the components determine the samples -/
theorem stack_inj {vs : List IArr} {N : Nat} (hl : ∀ v ∈ vs, v.rows.length = N) (hw : ∀ v ∈ vs, ∃ w, v.Wide w) {s t : Nat} (hs : s < N)
    (ht : t < N) :
    (vs.map (fun u => u.rows.getD s [])).flatten = (vs.map (fun u => u.rows.getD t [])).flatten ↔
      ∀ v ∈ vs, v.rows.getD s [] = v.rows.getD t [] := by
  constructor
  · intro h
    have hlen : (vs.map (fun u => u.rows.getD s [])).map List.length = (vs.map (fun u => u.rows.getD t [])).map List.length := by
      rw [List.map_map, List.map_map]
      refine List.map_congr_left fun v hv => ?_
      obtain ⟨w, hw⟩ := hw v hv
      have e : ∀ i, i < N → (v.rows.getD i []).length = w := by
        intro i hi
        have hi' : i < v.rows.length := by rw [hl v hv]; exact hi
        rw [List.getD_eq_getElem?_getD, List.getElem?_eq_getElem hi', Option.getD_some]
        exact hw.rows _ (List.getElem_mem hi')
      simp only [Function.comp, e s hs, e t ht]
    have := List.eq_iff_flatten_eq.2 ⟨h, hlen⟩
    exact List.map_inj_left.1 this
  · intro h
    rw [List.map_congr_left h]

theorem stack_same {vs : List IArr} {N : Nat} (hl : ∀ v ∈ vs, v.rows.length = N) (hw : ∀ v ∈ vs, ∃ w, v.Wide w) {β : Type} [DecidableEq β]
    (g : Nat → β) (hg : ∀ s, s < N → ∀ t, t < N → ((∀ v ∈ vs, v.rows.getD s [] = v.rows.getD t []) ↔ g s = g t)) :
    SameCounts (rowCodes (stackRows N vs)) ((List.range N).map g) := by
  refine (rowCodes_same _).trans (sameCounts_map _ _ _ fun s hs t ht => ?_)
  rw [← hg s (List.mem_range.1 hs) t (List.mem_range.1 ht)]
  exact stack_inj hl hw (List.mem_range.1 hs) (List.mem_range.1 ht)

/-! ## Agreement with the one-dimensional model -/

theorem miInit_map {α β : Type} (f : α → β) (data : List (List α)) (o : Option Int) :
    miInit (data.map (List.map f)) o = (miInit data o).map (List.map (List.map f)) := by
  have h0 : ∀ i, (data.map (List.map f)).getD i [] = (data.getD i []).map f := by
    intro i
    simp only [List.getD_eq_getElem?_getD, List.getElem?_map]
    cases data[i]? <;> simp
  have h1 : ((data.map (List.map f)).headD []).length = (data.headD []).length := by
    cases data <;> simp
  have h2 : (data.map (List.map f)).all (fun v => decide (v.length = ((data.map (List.map f)).headD []).length)) =
      data.all (fun v => decide (v.length = (data.headD []).length)) := by
    rw [h1, List.all_map]; congr 1; funext v; simp
  unfold miInit
  rw [h2, List.length_map]
  split
  · rfl
  split
  · rfl
  split
  · rfl
  cases o with
  | none => rfl
  | some o =>
    simp only [h0, pySlice_map]
    split
    · rfl
    split
    · rfl
    · rfl

theorem cmiInit_map {α β γ δ : Type} (f : α → β) (g : γ → δ) (data : List (List α)) (z : Option (List γ)) (o : Option Int) :
    cmiInit (data.map (List.map f)) (z.map (List.map g)) o = (cmiInit data z o).map (fun r => (r.1.map (List.map f), r.2.map g)) := by
  cases z with
  | none => rfl
  | some z =>
    unfold cmiInit
    simp only [Option.map_some]
    split
    · rfl
    · match data with
      | [] => rfl
      | [_] => rfl
      | x :: y :: rest =>
        simp only [List.map_cons, List.length_map, List.all_map]
        have : ((fun v => decide (v.length = z.length)) ∘ List.map f) = (fun v : List α => decide (v.length = z.length)) := by
          funext v; simp
        simp only [this]
        split
        · rfl
        split
        · rfl
        · rfl

theorem ofInts_rows (cols : List (List Int)) : (cols.map IArr.ofInts).map IArr.rows = cols.map (List.map (fun x => [x])) := by
  rw [List.map_map]; rfl

theorem ofInts_input (xs : List Int) : (IArr.ofInts xs).input = .arr1 xs := by
  simp only [IArr.ofInts, IArr.input, Bool.false_eq_true, if_false, List.map_map]
  congr 1
  exact List.map_id xs

theorem columnStack_reduce (cols : List (List Int)) : stackArr (cols.map IArr.ofInts) = columnStack cols := by
  cases cols with
  | nil => rfl
  | cons c cs =>
    simp only [List.map_cons, stackArr, columnStack]
    have h1 : (cs.map IArr.ofInts).all (fun u => decide (u.rows.length = (IArr.ofInts c).rows.length)) =
        cs.all (fun d => decide (d.length = c.length)) := by
      rw [List.all_map]; congr 1; funext v; simp [IArr.ofInts]
    rw [h1]
    by_cases hl : cs.all (fun d => decide (d.length = c.length)) = true
    swap
    · rw [if_neg hl, if_neg hl]
    rw [if_pos hl, if_pos hl]
    have hlen : (IArr.ofInts c).rows.length = c.length := by simp [IArr.ofInts]
    rw [hlen]
    congr 1
    refine List.map_congr_left fun t ht => ?_
    have ht := List.mem_range.1 ht
    have key : ∀ d : List Int, d.length = c.length → (IArr.ofInts d).rows.getD t [] = [d.getD t 0] := by
      intro d hd
      have : t < d.length := by rw [hd]; exact ht
      simp [IArr.ofInts, List.getD_eq_getElem?_getD, List.getElem?_eq_getElem this]
    rw [key c rfl]
    have : ((cs.map IArr.ofInts).map (fun u => u.rows.getD t [])) = cs.map (fun d => [d.getD t 0]) := by
      rw [List.map_map]
      refine List.map_congr_left fun d hd => key d ?_
      simpa using List.all_eq_true.1 hl d hd
    rw [this]
    simp only [List.flatten_cons, List.singleton_append]
    congr 1
    have h2 : cs.map (fun d => [d.getD t 0]) = (cs.map (fun d => d.getD t 0)).map (fun x => [x]) := by rw [List.map_map]; rfl
    rw [h2, flatten_map_single]

theorem columnStack_all {cols rs : List (List Int)} (h : columnStack cols = .ok rs) :
    cols.all (fun d => decide (d.length = (cols.headD []).length)) = true := by
  cases cols with
  | nil => cases h
  | cons c cs =>
    unfold columnStack at h
    simp only at h
    split at h
    · next hl => simpa using hl
    · cases h

theorem hConstructTup_ofInts (cols : List (List Int)) : hConstructTup (cols.map IArr.ofInts) = hConstruct (.tup cols) := by
  simp only [hConstructTup, columnStack_reduce]
  cases h : columnStack cols with
  | error e =>
    have he : e = .valueError := by
      cases cols with
      | nil => cases h; rfl
      | cons c cs => unfold columnStack at h; simp only at h; split at h <;> cases h; rfl
    subst he
    simp only [bind, Except.bind, hConstruct, discreteHInit, entropyInit]
    by_cases hl : cols.all (fun d => decide (d.length = (cols.headD []).length)) = true
    · rw [if_pos hl]
      simp [reduceVar, reduceJointSpace, h, Except.map, bind, Except.bind, List.mapM_cons]
    · rw [if_neg hl]
  | ok rs =>
    simp only [bind, Except.bind, hConstruct, discreteHInit, entropyInit, columnStack_all h, if_true, List.mapM_cons, List.mapM_nil, reduceVar,
      reduceJointSpace, h, Except.map]

theorem genericMIArr_one (est : HEst) (cols : List (List Int)) (o : Option Int) :
    genericMIArr est (cols.map IArr.ofInts) o = genericMI est cols o := by
  unfold genericMIArr genericMI
  rw [ofInts_rows, miInit_map]
  cases h : miInit cols o with
  | error e => rfl
  | ok d =>
    have hlen : d.length ≤ cols.length := by
      unfold miInit at h
      split at h
      · cases h
      split at h
      · cases h
      split at h
      · cases h
      cases o with
      | none => cases h
      | some o =>
        simp only at h
        split at h
        · cases h; simp; omega
        split at h
        · cases h; simp; omega
        · cases h; exact le_rfl
    have e : List.zipWith (fun a r => IArr.mk a.two r) (cols.map IArr.ofInts) (d.map (List.map (fun x => [x]))) = d.map IArr.ofInts := by
      clear h
      induction d generalizing cols with
      | nil => simp
      | cons x d ih =>
        cases cols with
        | nil => simp at hlen
        | cons c cs => simp only [List.map_cons, List.zipWith_cons_cons, ih cs (by simpa using hlen)]; rfl
    simp only [Except.map, bind, Except.bind, e, hConstructTup_ofInts, mapM_map', ofInts_input]

theorem genericCMIArr_one (est : HEst) (cols : List (List Int)) (z : List Int) (o : Option Int) :
    genericCMIArr est (cols.map IArr.ofInts) (IArr.ofInts z) o = genericCMI est cols z o := by
  unfold genericCMIArr genericCMI
  have h0 := cmiInit_map (fun x : Int => [x]) (fun x : Int => [x]) cols (some z) o
  rw [ofInts_rows, show (some (IArr.ofInts z).rows) = (some z).map (List.map (fun x : Int => [x])) from rfl, h0]
  cases h : cmiInit cols (some z) o with
  | error e => rfl
  | ok d =>
    have hd : d = (cols, z) := by
      unfold cmiInit at h
      simp only at h
      split at h
      · cases h
      · split at h
        · split at h
          · cases h
          split at h
          · cases h
          · cases h; rfl
        · cases h
    subst hd
    have e2 : ∀ v, hConstructTup [IArr.ofInts v, IArr.ofInts z] = hConstruct (.tup [v, z]) := fun v => hConstructTup_ofInts [v, z]
    have e3 : cols.map IArr.ofInts ++ [IArr.ofInts z] = (cols ++ [z]).map IArr.ofInts := by simp
    simp only [Except.map, bind, Except.bind, mapM_map', e2, e3, hConstructTup_ofInts, ofInts_input]

theorem biasMIArr_one (c : BiasClass) (cols : List (List Int)) (o : Option Int) (b : Base) :
    biasMIArr c (cols.map IArr.ofInts) o false b = biasMI c cols o b := by
  unfold biasMIArr biasMI
  rw [genericMIArr_one, ofInts_rows, miInit_map]
  cases miInit cols o <;> rfl

theorem nsbMIArr_one (find : Int → Int → ℝ) (K : Option PyArg) (cols : List (List Int)) (o : Option Int) (b : Base) :
    nsbMIArr find K (cols.map IArr.ofInts) o false b = nsbMI find K cols o b := by
  unfold nsbMIArr nsbMI
  simp only [genericMIArr_one]
  rw [ofInts_rows, miInit_map]
  cases miInit cols o <;> rfl

theorem biasCMIArr_one (c : BiasClass) (cols : List (List Int)) (z : List Int) (o : Option Int) (b : Base) :
    biasCMIArr c (cols.map IArr.ofInts) (IArr.ofInts z) o false b = biasCMI c cols z o b := by
  unfold biasCMIArr biasCMI
  have h0 := cmiInit_map (fun x : Int => [x]) (fun x : Int => [x]) cols (some z) o
  rw [genericCMIArr_one, ofInts_rows, show (some (IArr.ofInts z).rows) = (some z).map (List.map (fun x : Int => [x])) from rfl, h0]
  cases cmiInit cols (some z) o <;> rfl

theorem nsbCMIArr_one (find : Int → Int → ℝ) (K : Option PyArg) (cols : List (List Int)) (z : List Int) (o : Option Int) (b : Base) :
    nsbCMIArr find K (cols.map IArr.ofInts) (IArr.ofInts z) o false b = nsbCMI find K cols z o b := by
  unfold nsbCMIArr nsbCMI
  have h0 := cmiInit_map (fun x : Int => [x]) (fun x : Int => [x]) cols (some z) o
  simp only [genericCMIArr_one]
  rw [ofInts_rows, show (some (IArr.ofInts z).rows) = (some z).map (List.map (fun x : Int => [x])) from rfl, h0]
  cases cmiInit cols (some z) o <;> rfl

end Verif
