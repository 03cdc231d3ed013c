import Verif.Model.Entropy
import Verif.Lemmas.Info

/-! # Helper lemmas connecting the entropy model with the specification -/

namespace Verif

open Spec

theorem mapM_ok {ε α β : Type} {f : α → Except ε β} {g : α → β} (l : List α)
    (h : ∀ a ∈ l, f a = .ok (g a)) : l.mapM f = .ok (l.map g) := by
  induction l with
  | nil => rfl
  | cons a l ih =>
    rw [List.mapM_cons, h a (by simp), ih (fun b hb => h b (by simp [hb]))]
    rfl

theorem mapM_ok_id {ε β : Type} {α : Type} {f : α → Except ε β} {l : List α} {r : List β}
    (h : l.mapM f = .ok r) : List.Forall₂ (fun a b => f a = .ok b) l r := by
  induction l generalizing r with
  | nil => cases h; exact .nil
  | cons a l ih =>
    rw [List.mapM_cons] at h
    cases ha : f a with
    | error e => rw [ha] at h; cases h
    | ok b =>
      cases hl : l.mapM f with
      | error e => rw [ha, hl] at h; cases h
      | ok bs =>
        rw [ha, hl] at h; cases h
        exact .cons ha (ih hl)

theorem Base.Std.valid {b : Base} (h : b.Std) : b.Valid := by
  cases b with
  | e => trivial
  | num b => simp only [Base.Std, Base.Valid] at *; constructor <;> linarith

theorem Base.Std.ln_pos {b : Base} (h : b.Std) : 0 < b.ln := by
  cases b with
  | e => simp [Base.ln]
  | num b => exact Real.log_pos h

theorem Base.Valid.ln_ne {b : Base} (h : b.Valid) : b.ln ≠ 0 := by
  cases b with
  | e => simp [Base.ln]
  | num b =>
    simp only [Base.Valid] at h
    simp only [Base.ln, ne_eq, Real.log_eq_zero, not_or]
    refine ⟨h.1.ne', h.2, by linarith⟩

theorem logBase_ok {b : Base} (hb : b.Valid) {x : ℝ} (hx : 0 < x) :
    logBase b x = .ok (Real.log x / b.ln) := by
  cases b with
  | e => simp [logBase, npLog, hx, Base.ln]
  | num b =>
    obtain ⟨h0, h1⟩ := hb
    unfold logBase
    simp only [npLog, hx, if_true, Except.map, Base.ln]
    by_cases h2 : b = 2
    · simp [h2]
    by_cases h10 : b = 10
    · simp [h10]
    simp [h2, h10, h0.ne', not_lt.2 h0.le, h1]

theorem scaleBase_ok {b : Base} (hb : b.Valid) (v : ℝ) : scaleBase b v = .ok (v / b.ln) := by
  cases b with
  | e => simp [scaleBase, Base.ln]
  | num b =>
    obtain ⟨h0, h1⟩ := hb
    simp [scaleBase, Base.ln, h0, h1, h0.ne']

section
variable {α : Type} [LinearOrder α]

theorem npCounts_eq (xs : List α) : npCounts xs = (npUnique xs).map (cnt xs) := rfl

theorem npCounts_sum (xs : List α) : (npCounts xs).sum = xs.length := by
  have h : ((npCounts xs).sum : ℝ) = xs.length := by
    rw [npCounts_eq, ← sum_count xs, ← sum_npUnique]
    induction npUnique xs with
    | nil => simp
    | cons a l ih => simp only [List.map_cons, List.sum_cons, Nat.cast_add, ih]
  exact_mod_cast h

/-- the `DiscreteData` of a non-empty sample -/
def mkData (xs : List α) : DiscreteData α where
  uniq := npUnique xs
  counts := (npCounts xs).map Int.ofNat
  N := xs.length
  K := (npUnique xs).length
  data := some xs

theorem sum_map_ofNat (l : List Nat) : (l.map Int.ofNat).sum = (l.sum : Int) := by
  induction l with
  | nil => rfl
  | cons a l ih => simp only [List.map_cons, List.sum_cons, ih]; simp

theorem fromData_ok {xs : List α} (h : xs ≠ []) : DiscreteData.fromData xs = .ok (mkData xs) := by
  have hl : xs.length ≠ 0 := by simpa using h
  unfold DiscreteData.fromData
  rw [if_neg hl]
  unfold DiscreteData.postInit
  have h1 : (npUnique xs).length = (CountArr.ints ((npCounts xs).map Int.ofNat)).len := by
    simp [CountArr.len, npCounts]
  have h2 : (CountArr.ints ((npCounts xs).map Int.ofNat)).anyNeg = false := by
    simp [CountArr.anyNeg]
  have h4 : ((npCounts xs).map Int.ofNat).sum = (xs.length : Int) := by
    rw [sum_map_ofNat, npCounts_sum]
  have h3 : (CountArr.ints ((npCounts xs).map Int.ofNat)).sumZero = false := by
    simp only [CountArr.sumZero, h4]
    simp [h]
  rw [if_neg (by simpa using h1), if_neg (by simp [h2]), if_neg (by simp [h3])]
  simp only [hl, if_false, h4, ne_eq, not_true_eq_false]
  rfl

theorem fromData_nil : DiscreteData.fromData ([] : List α) = .error .valueError := by
  simp [DiscreteData.fromData]

theorem mkData_probabilities (xs : List α) :
    (mkData xs).probabilities = (npUnique xs).map (freq xs) := by
  simp only [DiscreteData.probabilities, mkData, npCounts_eq, List.map_map]
  refine List.map_congr_left fun a _ => ?_
  simp [freq]

theorem zip_map_self {α β : Type} (l : List α) (f : α → β) :
    l.zip (l.map f) = l.map (fun a => (a, f a)) := by
  induction l with
  | nil => rfl
  | cons b l ih => simp [ih]

theorem dictGet_map {α β : Type} [DecidableEq α] (l : List α) (f : α → β) {a : α} (ha : a ∈ l) :
    dictGet (l.map (fun a => (a, f a))) a = .ok (f a) := by
  unfold dictGet
  rw [← List.map_reverse, List.find?_map]
  have : (l.reverse.find? ((fun e : α × β => decide (e.1 = a)) ∘ fun a => (a, f a))) = some a := by
    have hs : (l.reverse.find? ((fun e : α × β => decide (e.1 = a)) ∘ fun a => (a, f a))).isSome := by
      rw [List.find?_isSome]; exact ⟨a, by simpa using ha, by simp⟩
    obtain ⟨x, hx⟩ := Option.isSome_iff_exists.1 hs
    have := List.find?_some hx
    simp at this
    rw [hx, this]
  rw [this]; rfl

theorem dictGet_zip {α β : Type} [DecidableEq α] (l : List α) (f : α → β) {a : α} (ha : a ∈ l) :
    dictGet (l.zip (l.map f)) a = .ok (f a) := by
  rw [zip_map_self, dictGet_map l f ha]

theorem discreteSimple_ok {xs : List α} {b : Base} (hb : b.Valid) :
    discreteSimple b (mkData xs) = .ok (entropy xs / b.ln) := by
  unfold discreteSimple
  rw [mkData_probabilities, mapM_ok (g := fun p => p * (Real.log p / b.ln))]
  · simp only [bind, Except.bind, pure, Except.pure]
    congr 1
    rw [List.map_map, sum_npUnique, entropy, neg_div, Finset.sum_div]
    congr 1
    refine Finset.sum_congr rfl fun a _ => ?_
    simp only [Function.comp]; ring
  · intro p hp
    obtain ⟨a, ha, rfl⟩ := List.mem_map.1 hp
    rw [logBase_ok hb (freq_pos (mem_npUnique.1 ha))]
    rfl

theorem discreteLocal_ok {xs : List α} {b : Base} (hb : b.Valid) :
    discreteLocal b (mkData xs) = .ok (xs.map (fun a => - (Real.log (freq xs a) / b.ln))) := by
  unfold discreteLocal
  simp only [DiscreteData.distributionDict, mkData_probabilities]
  have e : (mkData xs).uniq = npUnique xs := rfl
  have e2 : (mkData xs).data = some xs := rfl
  rw [e, e2]
  simp only [bind, Except.bind, pure, Except.pure]
  rw [mapM_ok (g := freq xs) xs (fun a ha => dictGet_zip _ _ (mem_npUnique.2 ha))]
  simp only
  rw [mapM_ok (g := fun p => Real.log p / b.ln)]
  · simp only [List.map_map]; rfl
  · intro p hp
    obtain ⟨a, ha, rfl⟩ := List.mem_map.1 hp
    exact logBase_ok hb (freq_pos ha)

end

theorem discreteHInit_arr1 {xs : List Int} (h : xs ≠ []) :
    discreteHInit [.arr1 xs] = .ok [mkData xs] := by
  simp only [discreteHInit, entropyInit, bind, Except.bind, List.mapM_cons, List.mapM_nil,
    reduceVar, fromData_ok h, pure, Except.pure]

theorem discreteEntropy_arr1 {xs : List Int} (h : xs ≠ []) {b : Base} (hb : b.Valid) :
    discreteEntropy [.arr1 xs] b = .ok (entropy xs / b.ln) := by
  simp only [discreteEntropy, discreteHInit_arr1 h, bind, Except.bind, entropyDispatch,
    discreteSimple_ok hb]

/-! ## joint spaces -/

theorem entropy_inverse {α : Type} [LinearOrder α] [D : DecidableEq α] (xs : List α) :
    entropy ((npInverse xs).map Int.ofNat) = entropy xs := by
  have hD : D = LinearOrder.toDecidableEq := Subsingleton.elim _ _
  subst hD
  have h := entropy_map_congr xs (Int.ofNat ∘ npPos xs) id (fun u hu v hv => by
    simp only [Function.comp, Int.ofNat.injEq, id]
    exact npPos_inj hu hv)
  rw [npInverse, List.map_map]
  rw [List.map_id] at h
  exact h

theorem columnStack_ok {cols : List (List Int)} {n : Nat} (hne : cols ≠ [])
    (hl : ∀ c ∈ cols, c.length = n) : columnStack cols = .ok (Spec.rows n cols) := by
  cases cols with
  | nil => exact absurd rfl hne
  | cons c cs =>
    have hc : c.length = n := hl c (by simp)
    have : cs.all (fun d => decide (d.length = c.length)) = true := by
      rw [List.all_eq_true]; intro d hd; simp [hc, hl d (by simp [hd])]
    simp only [columnStack, this, if_true]
    rw [hc]; rfl

end Verif
