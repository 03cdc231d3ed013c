import Verif.Model.Knn
import Verif.Spec.Knn
import Verif.Lemmas.Kernel2
import Verif.Lemmas.Bias

/-! # Lemmas: nearest neighbours -/

namespace Verif

open Spec

/-- the order as the specification writes it -/
def PNorm.order : PNorm → Option ℝ
  | .inf => none
  | .num p => some p

theorem foldr_max_eq (l : List ℝ) (h : ∀ a ∈ l, 0 ≤ a) : l.foldr max 0 = ⨆ i : Fin l.length, l.getD i 0 := by
  induction l with
  | nil => simp [Real.iSup_of_isEmpty]
  | cons a l ih =>
    rw [List.foldr_cons, ih (fun b hb => h b (by simp [hb]))]
    have hbdd : BddAbove (Set.range fun i : Fin (a :: l).length => (a :: l).getD i 0) := Set.finite_range _ |>.bddAbove
    have hbdd' : BddAbove (Set.range fun i : Fin l.length => l.getD i 0) := Set.finite_range _ |>.bddAbove
    apply le_antisymm
    · apply max_le
      · exact le_ciSup hbdd (⟨0, by simp⟩ : Fin (a :: l).length)
      · by_cases he : l = []
        · subst he
          simp only [List.length_nil, Real.iSup_of_isEmpty]
          exact le_trans (h a (by simp)) (le_ciSup hbdd (⟨0, by simp⟩ : Fin (a :: []).length))
        · have : Nonempty (Fin l.length) := ⟨⟨0, List.length_pos_iff.2 he⟩⟩
          refine ciSup_le fun i => ?_
          exact le_ciSup hbdd (⟨i + 1, by simp⟩ : Fin (a :: l).length)
    · have : Nonempty (Fin (a :: l).length) := ⟨⟨0, by simp⟩⟩
      refine ciSup_le fun i => ?_
      rcases i with ⟨i, hi⟩
      cases i with
      | zero => exact le_max_left _ _
      | succ i =>
        refine le_trans ?_ (le_max_right _ _)
        exact le_ciSup hbdd' (⟨i, by simpa using hi⟩ : Fin l.length)

theorem zipWith_getD {f : ℝ → ℝ → ℝ} {x y : List ℝ} (hl : x.length = y.length) (i : Nat) (hi : i < x.length) :
    (List.zipWith f x y).getD i 0 = f (x.getD i 0) (y.getD i 0) := by
  have hi' : i < y.length := hl ▸ hi
  simp [List.getD_eq_getElem?_getD, List.getElem?_zipWith, List.getElem?_eq_getElem hi, List.getElem?_eq_getElem hi']

theorem zipWith_nonneg {f : ℝ → ℝ → ℝ} (hf : ∀ a b, 0 ≤ f a b) (x y : List ℝ) : ∀ a ∈ List.zipWith f x y, 0 ≤ a := by
  intro a ha
  rw [← List.map_uncurry_zip_eq_zipWith] at ha
  obtain ⟨q, _, rfl⟩ := List.mem_map.1 ha
  exact hf _ _

theorem minkDist_eq {p : PNorm} {x y : List ℝ} (hl : x.length = y.length) :
    minkDist p x y = distance p.order x y := by
  match p with
  | .inf =>
    change (List.zipWith (fun a b => |a - b|) x y).foldr max 0 = ⨆ i : Fin x.length, |x.getD i 0 - y.getD i 0|
    rw [foldr_max_eq _ (zipWith_nonneg (fun _ _ => abs_nonneg _) _ _)]
    have hlen : (List.zipWith (fun a b => |a - b|) x y).length = x.length := by simp [hl]
    refine Equiv.iSup_congr (finCongr hlen) fun i => ?_
    exact (zipWith_getD (f := fun a b => |a - b|) hl i (by have := i.2; omega)).symm
  | .num q =>
    change (List.zipWith (fun a b => |a - b| ^ q) x y).sum ^ (1 / q) = (∑ i : Fin x.length, |x.getD i 0 - y.getD i 0| ^ q) ^ (1 / q)
    congr 1
    have hlen : (List.zipWith (fun a b => |a - b| ^ q) x y).length = x.length := by simp [hl]
    rw [← Fin.sum_univ_getElem]
    refine Fintype.sum_equiv (finCongr hlen) _ _ fun i => ?_
    have := zipWith_getD (f := fun a b => |a - b| ^ q) hl i (by have := i.2; omega)
    rw [List.getD_eq_getElem?_getD, List.getElem?_eq_getElem i.2] at this
    exact this

theorem distance_nonneg (p : Option ℝ) (x y : List ℝ) : 0 ≤ distance p x y := by
  match p with
  | none => exact Real.iSup_nonneg fun _ => abs_nonneg _
  | some p => exact Real.rpow_nonneg (Finset.sum_nonneg fun _ _ => Real.rpow_nonneg (abs_nonneg _) _) _

/-- orders allowed by SciPy: at least one -/
def OrderOk : Option ℝ → Prop
  | none => True
  | some p => 1 ≤ p

theorem PNorm.orderOk {p : PNorm} (h : p.ok = true) : OrderOk p.order := by
  match p with
  | .inf => trivial
  | .num p => simpa [PNorm.ok, OrderOk, PNorm.order] using h

theorem distance_self {p : Option ℝ} (hp : OrderOk p) (x : List ℝ) : distance p x x = 0 := by
  match p with
  | none => simp [distance]
  | some p =>
    have h1 : (1 : ℝ) ≤ p := hp
    simp [distance, Real.zero_rpow (by linarith : p ≠ 0), Real.zero_rpow (by positivity : p⁻¹ ≠ 0)]

theorem distance_comm {p : Option ℝ} {x y : List ℝ} (hl : x.length = y.length) : distance p x y = distance p y x := by
  match p with
  | none =>
    unfold distance
    refine Equiv.iSup_congr (finCongr hl) fun i => ?_
    simp [abs_sub_comm]
  | some p =>
    change (∑ i : Fin x.length, |x.getD i 0 - y.getD i 0| ^ p) ^ (1 / p) = (∑ i : Fin y.length, |y.getD i 0 - x.getD i 0| ^ p) ^ (1 / p)
    congr 1
    refine Fintype.sum_equiv (finCongr hl) _ _ fun i => ?_
    simp [abs_sub_comm]

theorem zipWith_sublist {α β γ : Type} (f : α → β → γ) {x x' : List α} {y y' : List β} (hx : x.length = y.length) :
    List.zipWith f (x ++ x') (y ++ y') = List.zipWith f x y ++ List.zipWith f x' y' := List.zipWith_append hx

theorem foldr_max_append (l l' : List ℝ) (h : ∀ a ∈ l, 0 ≤ a) (h' : ∀ a ∈ l', 0 ≤ a) :
    (l ++ l').foldr max 0 = max (l.foldr max 0) (l'.foldr max 0) := by
  induction l with
  | nil =>
    have : 0 ≤ l'.foldr max 0 := by
      cases l' with
      | nil => simp
      | cons a l' => exact le_trans (h' a (by simp)) (le_max_left _ _)
    simp [this]
  | cons a l ih =>
    simp only [List.cons_append, List.foldr_cons]
    rw [ih (fun b hb => h b (by simp [hb])), max_assoc]

/-- the distance in a space of two parts is at least the distance in either part -/
theorem minkDist_append_ge {p : PNorm} (hp : p.ok = true) {x x' y y' : List ℝ} (hx : x.length = y.length) :
    minkDist p x y ≤ minkDist p (x ++ x') (y ++ y') ∧ minkDist p x' y' ≤ minkDist p (x ++ x') (y ++ y') := by
  match p with
  | .inf =>
    simp only [minkDist]
    rw [zipWith_sublist _ hx, foldr_max_append _ _ (zipWith_nonneg (fun _ _ => abs_nonneg _) _ _)
      (zipWith_nonneg (fun _ _ => abs_nonneg _) _ _)]
    exact ⟨le_max_left _ _, le_max_right _ _⟩
  | .num q =>
    have h1 : 1 ≤ q := by simpa [PNorm.ok] using hp
    have hn : ∀ x y : List ℝ, 0 ≤ (List.zipWith (fun a b => |a - b| ^ q) x y).sum := fun x y =>
      List.sum_nonneg (zipWith_nonneg (fun _ _ => Real.rpow_nonneg (abs_nonneg _) _) _ _)
    simp only [minkDist]
    rw [zipWith_sublist _ hx, List.sum_append]
    have ha := hn x y
    have hb := hn x' y'
    exact ⟨Real.rpow_le_rpow ha (by linarith) (by positivity), Real.rpow_le_rpow hb (by linarith) (by positivity)⟩

theorem sorted_kth {l : List ℝ} (hs : l.Pairwise (· ≤ ·)) {k : Nat} {ε : ℝ} (h : l[k]? = some ε) :
    (l.countP (fun a => @decide (a < ε) (Classical.propDecidable _))) ≤ k ∧
      k < l.countP (fun a => @decide (a ≤ ε) (Classical.propDecidable _)) := by
  obtain ⟨hk, hε⟩ := List.getElem?_eq_some_iff.1 h
  constructor
  · have e0 : l.countP (fun a => @decide (a < ε) (Classical.propDecidable _)) =
        (l.take k ++ l.drop k).countP (fun a => @decide (a < ε) (Classical.propDecidable _)) := by rw [List.take_append_drop]
    rw [e0, List.countP_append]
    have h0 : (l.drop k).countP (fun a => @decide (a < ε) (Classical.propDecidable _)) = 0 := by
      rw [List.countP_eq_zero]
      intro a ha
      obtain ⟨i, hi, rfl⟩ := List.getElem_of_mem ha
      simp only [decide_eq_true_eq, not_lt, List.getElem_drop]
      rw [← hε]
      rcases Nat.eq_zero_or_pos i with rfl | hi0
      · simp
      · exact List.pairwise_iff_getElem.1 hs _ _ _ _ (by omega)
    rw [h0, Nat.add_zero]
    exact le_trans List.countP_le_length (by simp)
  · have h1 : (l.take (k + 1)).countP (fun a => @decide (a ≤ ε) (Classical.propDecidable _)) = k + 1 := by
      have : (l.take (k + 1)).length = k + 1 := by simp; omega
      conv_rhs => rw [← this]
      rw [List.countP_eq_length]
      intro a ha
      obtain ⟨i, hi, rfl⟩ := List.getElem_of_mem ha
      simp only [decide_eq_true_eq, List.getElem_take]
      rw [← hε]
      have hi' : i < k + 1 := by omega
      rcases Nat.lt_or_ge i k with h2 | h2
      · exact List.pairwise_iff_getElem.1 hs _ _ _ _ h2
      · have : i = k := by omega
        subst this; exact le_refl _
    have := (List.take_sublist (k + 1) l).countP_le (p := fun a => @decide (a ≤ ε) (Classical.propDecidable _))
    omega

/-- the `k`-th distance exists when there are at least `k` points -/
theorem kthDist_isSome {p : PNorm} {rows : List (List ℝ)} {k : Nat} {x : List ℝ} (hk : 0 < k) (h : k ≤ rows.length) :
    ∃ ε, kthDist p rows k x = some ε := by
  unfold kthDist
  rw [List.getElem?_eq_getElem (by rw [List.length_mergeSort, List.length_map]; omega)]
  exact ⟨_, rfl⟩

theorem kthDist_none {p : PNorm} {rows : List (List ℝ)} {k : Nat} {x : List ℝ} (h : rows.length < k) :
    kthDist p rows k x = none := by
  unfold kthDist
  rw [List.getElem?_eq_none (by rw [List.length_mergeSort, List.length_map]; omega)]

theorem kthDist_spec {p : PNorm} {rows : List (List ℝ)} {k : Nat} {x : List ℝ} {ε : ℝ} (h : kthDist p rows k x = some ε) :
    (∃ y ∈ rows, minkDist p x y = ε) ∧
      rows.countP (fun y => @decide (minkDist p x y < ε) (Classical.propDecidable _)) ≤ k - 1 ∧
      k - 1 < rows.countP (fun y => @decide (minkDist p x y ≤ ε) (Classical.propDecidable _)) := by
  unfold kthDist at h
  have hperm := List.mergeSort_perm (rows.map (minkDist p x)) (fun a b => @decide (a ≤ b) (Classical.propDecidable _))
  have hs : ((rows.map (minkDist p x)).mergeSort (fun a b => @decide (a ≤ b) (Classical.propDecidable _))).Pairwise (· ≤ ·) := by
    have := List.pairwise_mergeSort (le := fun a b : ℝ => @decide (a ≤ b) (Classical.propDecidable _))
      (by intro a b c; simp only [decide_eq_true_eq]; exact le_trans)
      (by intro a b; simp only [Bool.or_eq_true, decide_eq_true_eq]; exact le_total a b) (rows.map (minkDist p x))
    simpa only [decide_eq_true_eq] using this
  have := sorted_kth hs h
  rw [hperm.countP_eq, hperm.countP_eq, List.countP_map, List.countP_map] at this
  refine ⟨?_, this⟩
  have hm : ε ∈ rows.map (minkDist p x) := hperm.mem_iff.1 (List.mem_of_getElem? h)
  obtain ⟨y, hy, e⟩ := List.mem_map.1 hm
  exact ⟨y, hy, e⟩

theorem countP_range_split {n t : Nat} (ht : t < n) (P : Nat → Prop) :
    (List.range n).countP (fun s => @decide (P s) (Classical.propDecidable _)) =
      ((List.range n).filter (fun s => @decide (s ≠ t ∧ P s) (Classical.propDecidable _))).length +
        (@ite Nat (P t) (Classical.propDecidable _) 1 0) := by
  classical
  rw [List.countP_eq_length_filter, ← List.toFinset_card_of_nodup (List.nodup_range.filter _),
    ← List.toFinset_card_of_nodup (List.nodup_range.filter _)]
  simp only [List.toFinset_filter, decide_eq_true_eq]
  have e : ((List.range n).toFinset.filter (fun s => s ≠ t ∧ P s)) = ((List.range n).toFinset.filter (fun s => P s)).erase t := by
    ext s; simp only [Finset.mem_filter, Finset.mem_erase, List.mem_toFinset, List.mem_range]; tauto
  split_ifs with h
  · have hm : t ∈ (List.range n).toFinset.filter (fun s => P s) := by simp [ht, h]
    have := Finset.card_erase_add_one hm
    rw [← e] at this
    convert this.symm using 2
  · have hm : t ∉ (List.range n).toFinset.filter (fun s => P s) := by simp [h]
    rw [Finset.erase_eq_of_notMem hm] at e
    rw [Nat.add_zero]
    convert (congrArg Finset.card e).symm using 2

theorem countP_rows {rows : List (List ℝ)} {n : Nat} (hn : rows.length = n) (P : List ℝ → Prop) :
    rows.countP (fun y => @decide (P y) (Classical.propDecidable _)) =
      (List.range n).countP (fun s => @decide (P (rows.getD s [])) (Classical.propDecidable _)) := by
  conv_lhs => rw [list_eq_range rows [] hn]
  rw [List.countP_map]
  rfl

end Verif
