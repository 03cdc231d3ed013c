import Verif.Lemmas.Lehmer
import Verif.Lemmas.TE3
import Mathlib.Order.Monotone.Basic

/-! # Lemmas on symbolisation -/

namespace Verif

section
variable {α : Type} [LinearOrder α] [Inhabited α]

theorem map_getD_range (w : List α) : (List.range w.length).map (fun i => w.getD i default) = w := by
  refine List.ext_getElem (by simp) fun i h1 h2 => ?_
  simp [List.getElem?_eq_getElem h2]

theorem getD_lt {β : Type} [Inhabited β] {w : List β} {i : Nat} (hi : i < w.length) :
    w.getD i default = w[i] := by
  simp [List.getD_eq_getElem?_getD, List.getElem?_eq_getElem hi]

theorem IsArgsort.values_perm {w : List α} {p : List Nat} (h : IsArgsort w p) :
    (p.map (fun i => w.getD i default)).Perm w := by
  have := h.perm.map (fun i => w.getD i default)
  rwa [map_getD_range] at this

theorem IsArgsort.length {w : List α} {p : List Nat} (h : IsArgsort w p) : p.length = w.length := by
  rw [h.perm.length_eq, List.length_range]

theorem IsArgsort.lt {w : List α} {p : List Nat} (h : IsArgsort w p) {i : Nat} (hi : i ∈ p) :
    i < w.length := List.mem_range.1 (h.perm.mem_iff.1 hi)

theorem getD_inj {w : List α} (hw : w.Nodup) {i j : Nat} (hi : i < w.length) (hj : j < w.length)
    (h : w.getD i default = w.getD j default) : i = j := by
  rw [getD_lt hi, getD_lt hj] at h
  exact (hw.getElem_inj_iff).1 h

theorem map_inj_of_mem {β γ : Type} {f : β → γ} : ∀ {l m : List β},
    (∀ x ∈ l, ∀ y ∈ m, f x = f y → x = y) → l.map f = m.map f → l = m
  | [], [], _, _ => rfl
  | [], _ :: _, _, h => by simp at h
  | _ :: _, [], _, h => by simp at h
  | a :: l, b :: m, hf, h => by
    simp only [List.map_cons, List.cons.injEq] at h
    rw [hf a (by simp) b (by simp) h.1, map_inj_of_mem (fun x hx y hy => hf x (by simp [hx]) y (by simp [hy])) h.2]

/-- on a tie-free window there is only one sorting permutation -/
theorem IsArgsort.unique {w : List α} (hw : w.Nodup) {p q : List Nat} (hp : IsArgsort w p)
    (hq : IsArgsort w q) : p = q := by
  have h : p.map (fun i => w.getD i default) = q.map (fun i => w.getD i default) :=
    (hp.values_perm.trans hq.values_perm.symm).eq_of_pairwise
      (fun a b _ _ h1 h2 => le_antisymm h1 h2) hp.sorted hq.sorted
  exact map_inj_of_mem (fun x hx y hy => getD_inj hw (hp.lt hx) (hq.lt hy)) h

theorem argsortStable_isArgsort (w : List α) : IsArgsort w (argsortStable w) where
  perm := List.mergeSort_perm _ _
  sorted := by
    rw [List.pairwise_map]
    have := List.pairwise_mergeSort (le := fun i j : Nat => decide (w.getD i default ≤ w.getD j default))
      (fun a b c h1 h2 => by simp only [decide_eq_true_eq] at *; exact le_trans h1 h2)
      (fun a b => by simp only [Bool.or_eq_true, decide_eq_true_eq]; exact le_total _ _) (List.range w.length)
    exact this.imp (fun h => of_decide_eq_true h)

/-- stability: among equal values the positions increase -/
theorem argsortStable_stable (w : List α) :
    (argsortStable w).Pairwise (fun i j => w.getD i default < w.getD j default ∨
      (w.getD i default = w.getD j default ∧ i < j)) := by
  have hs := (argsortStable_isArgsort w).sorted
  have hp := (argsortStable_isArgsort w).perm
  rw [List.pairwise_map] at hs
  have hnd : (argsortStable w).Nodup := hp.nodup_iff.2 List.nodup_range
  rw [List.pairwise_iff_forall_sublist] at hs ⊢
  intro i j hij
  have hle := hs hij
  rcases lt_or_eq_of_le hle with h | h
  · exact Or.inl h
  refine Or.inr ⟨h, ?_⟩
  have hne : i ≠ j := by
    have := hnd.sublist hij
    simpa using this
  by_contra hlt
  have hji : j < i := by omega
  have hi : i < w.length := (argsortStable_isArgsort w).lt (hij.subset (by simp))
  have hsub : [j, i].Sublist (List.range w.length) := by
    have hpw : (List.range w.length).Pairwise (· < ·) := List.pairwise_lt_range
    have hsub' : [j, i].Sublist (List.range (i + 1)) := by
      rw [List.range_succ]
      have : [j].Sublist (List.range i) := List.singleton_sublist.2 (List.mem_range.2 hji)
      exact List.Sublist.append this (List.Sublist.refl [i])
    refine hsub'.trans (List.range_sublist.2 (by omega))
  have hms : [j, i].Sublist (argsortStable w) :=
    List.pair_sublist_mergeSort
      (fun a b c h1 h2 => by simp only [decide_eq_true_eq] at *; exact le_trans h1 h2)
      (fun a b => by simp only [Bool.or_eq_true, decide_eq_true_eq]; exact le_total _ _)
      (by simp only [decide_eq_true_eq]; exact h.ge) hsub
  have h2 : [i, j] = [j, i] := by
    have e : ([i, j] : List Nat).Perm [j, i] := List.Perm.swap j i []
    -- in a list without duplicates two elements occur in one order only
    have hpw : ∀ {a b : Nat}, [a, b].Sublist (argsortStable w) →
        (argsortStable w).idxOf a < (argsortStable w).idxOf b := by
      intro a b hab'
      refine (List.pairwise_iff_forall_sublist (R := fun a b =>
        (argsortStable w).idxOf a < (argsortStable w).idxOf b)).1 ?_ hab'
      rw [List.pairwise_iff_getElem]
      intro a b ha hb hab
      rw [hnd.idxOf_getElem, hnd.idxOf_getElem]; exact hab
    have a1 := hpw hij
    have a2 := hpw hms
    omega
  simp at h2
  exact hne h2.1

theorem mergeSort_congr {β : Type} {l : List β} {r s : β → β → Bool}
    (h : ∀ a ∈ l, ∀ b ∈ l, r a b = s a b) : l.mergeSort r = l.mergeSort s := by
  have := List.map_mergeSort (r := r) (s := s) (f := id) (l := l) h
  simpa using this

end

section
variable {α β : Type} [LinearOrder α] [Inhabited α] [LinearOrder β] [Inhabited β]

/-- two windows with the same comparisons -/
def SameOrder (v : List α) (w : List β) : Prop :=
  v.length = w.length ∧ ∀ i < v.length, ∀ j < v.length,
    (v.getD i default ≤ v.getD j default ↔ w.getD i default ≤ w.getD j default)

theorem argsortStable_sameOrder {v : List α} {w : List β} (h : SameOrder v w) :
    argsortStable v = argsortStable w := by
  unfold argsortStable
  rw [← h.1]
  refine mergeSort_congr fun a ha b hb => ?_
  have := h.2 a (List.mem_range.1 ha) b (List.mem_range.1 hb)
  simp only [this]

theorem IsArgsort.sameOrder {v : List α} {w : List β} (h : SameOrder v w) {p : List Nat}
    (hp : IsArgsort v p) : IsArgsort w p where
  perm := by rw [← h.1]; exact hp.perm
  sorted := by
    have := hp.sorted
    rw [List.pairwise_map] at this ⊢
    refine this.imp_of_mem fun {a b} ha hb hab => ?_
    exact (h.2 a (hp.lt ha) b (hp.lt hb)).1 hab

theorem SameOrder.nodup {v : List α} {w : List β} (h : SameOrder v w) (hv : v.Nodup) : w.Nodup := by
  rw [List.nodup_iff_injective_getElem] at hv ⊢
  rintro ⟨i, hi⟩ ⟨j, hj⟩ hij
  have hi' : i < v.length := h.1 ▸ hi
  have hj' : j < v.length := h.1 ▸ hj
  have h1 := h.2 i hi' j hj'
  have h2 := h.2 j hj' i hi'
  rw [getD_lt hi', getD_lt hj', getD_lt hi,
    getD_lt hj] at h1 h2
  have : v[i] = v[j] := le_antisymm (h1.2 hij.le) (h2.2 hij.ge)
  have := @hv ⟨i, hi'⟩ ⟨j, hj'⟩ this
  simpa using this

theorem sortFun_isArgsort (quick : Argsort α) (stable : Bool) (w : List α) :
    IsArgsort w (sortFun quick stable w) := by
  unfold sortFun
  split_ifs
  · exact argsortStable_isArgsort w
  · exact quick.correct w

theorem sortFun_sameOrder {v : List α} {w : List β} (h : SameOrder v w) (q : Argsort α) (q' : Argsort β)
    (stable : Bool) (hs : stable = true ∨ v.Nodup) : sortFun q stable v = sortFun q' stable w := by
  rcases hs with rfl | hv
  · simp only [sortFun, if_true]; exact argsortStable_sameOrder h
  · exact IsArgsort.unique (h.nodup hv) ((sortFun_isArgsort q stable v).sameOrder h)
      (sortFun_isArgsort q' stable w)

end

section
variable {α : Type} [LinearOrder α] [Inhabited α]

omit [LinearOrder α] in
/-- number of windows -/
theorem windows_length (x : List α) (d s : Nat) : (windows x d s).length = x.length - (d - 1) * s := by
  simp [windows]

omit [LinearOrder α] in
theorem mem_windows_length {x : List α} {d s : Nat} {w : List α} (h : w ∈ windows x d s) : w.length = d := by
  obtain ⟨i, _, rfl⟩ := List.mem_map.1 h
  simp

theorem symbolize_ok (q : Argsort α) (x : List α) {d s : Nat} (hd : 1 ≤ d) (hs : 1 ≤ s)
    (hn : (d - 1) * s < x.length) (stable : Bool) :
    symbolize q x d s stable = .ok ((windows x d s).map (sortFun q stable)) := by
  unfold symbolize
  have h3 : ¬ ((x.length : Int) ≤ ((d : Int) - 1) * s) := by
    have : ((d : Int) - 1) = ((d - 1 : Nat) : Int) := by omega
    rw [this]
    intro h
    have : x.length ≤ (d - 1) * s := by exact_mod_cast h
    omega
  rw [if_neg (by omega), if_neg (by omega), if_neg h3]
  simp

theorem codes_of_perms (ps : List (List Nat)) (d : Nat) (hd : d ≤ 20) (h : ∀ p ∈ ps, p.length = d) :
    ps.mapM (fun p => permutationToInteger p (symbolType d)) = .ok (ps.map lehmer) := by
  refine mapM_ok _ fun p hp => ?_
  have hl := h p hp
  exact permutationToInteger_exact (by omega) (by rw [hl]; exact symbolType_fits hd)

theorem symbolizeInt_ok (q : Argsort α) (x : List α) {d s : Nat} (hd : 1 ≤ d) (hd' : d ≤ 20) (hs : 1 ≤ s)
    (hn : (d - 1) * s < x.length) (stable : Bool) :
    symbolizeInt q x d s stable =
      .ok ((windows x d s).map (fun w => (lehmer (sortFun q stable w) : Int))) := by
  unfold symbolizeInt
  rw [symbolize_ok q x hd hs hn]
  simp only [bind, Except.bind, Int.toNat_natCast]
  rw [codes_of_perms _ d hd']
  · simp only [pure, Except.pure, List.map_map]; rfl
  · intro p hp
    obtain ⟨w, hw, rfl⟩ := List.mem_map.1 hp
    rw [(sortFun_isArgsort q stable w).length, mem_windows_length hw]

theorem sortFun_perm_of_mem (q : Argsort α) (stable : Bool) {x : List α} {d s : Nat} {w : List α}
    (hw : w ∈ windows x d s) : (sortFun q stable w).Perm (List.range d) := by
  have := (sortFun_isArgsort q stable w).perm
  rwa [mem_windows_length hw] at this

end

/-- an `Argsort` exists: the stable one -/
def stableSort {α : Type} [LinearOrder α] [Inhabited α] : Argsort α := ⟨argsortStable, argsortStable_isArgsort⟩

end Verif
