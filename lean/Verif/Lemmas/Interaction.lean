import Verif.Model.Interaction
import Verif.Lemmas.Entropy

/-! # Helper lemmas: contingency tables -/

namespace Verif

open Spec

section coo
variable {κ : Type} [DecidableEq κ]

theorem Coo.cells_ofRows (rows : List κ) :
    (Coo.ofRows rows).cells = rows.dedup.map (fun r => (r, cnt rows r)) := by
  simp only [Coo.cells, Coo.ofRows]
  exact zip_map_self _ _

theorem Coo.mem_cells {rows : List κ} {e : κ × Nat} :
    e ∈ (Coo.ofRows rows).cells ↔ e.1 ∈ rows ∧ e.2 = cnt rows e.1 := by
  rw [Coo.cells_ofRows, List.mem_map]
  constructor
  · rintro ⟨r, hr, rfl⟩; exact ⟨List.mem_dedup.1 hr, rfl⟩
  · rintro ⟨h1, h2⟩; exact ⟨e.1, List.mem_dedup.2 h1, by rw [← h2]⟩

theorem sum_dedup {M : Type} [AddCommMonoid M] (rows : List κ) (f : κ → M) :
    (rows.dedup.map f).sum = ∑ a ∈ rows.toFinset, f a := by
  have h : rows.dedup.toFinset = rows.toFinset := by ext; simp
  rw [← h, List.sum_toFinset _ (List.nodup_dedup rows)]

theorem Coo.sumWhere_ofRows (rows : List κ) (p : κ → Bool) :
    (Coo.ofRows rows).sumWhere p = rows.countP p := by
  have h := sum_map_eq_count rows (fun r => if p r then (1:ℝ) else 0)
  have h2 : ((rows.map (fun r => if p r then (1:ℝ) else 0)).sum) = (rows.countP p : ℝ) := by
    clear h
    induction rows with
    | nil => simp
    | cons a l ih => simp only [List.map_cons, List.sum_cons, ih, List.countP_cons]; push_cast; ring
  have h3 : (((Coo.ofRows rows).sumWhere p : ℕ) : ℝ) =
      ∑ a ∈ rows.toFinset, (cnt rows a : ℝ) * (if p a then (1:ℝ) else 0) := by
    rw [Coo.sumWhere, Coo.cells_ofRows, List.map_map, sum_dedup, Nat.cast_sum]
    refine Finset.sum_congr rfl fun a _ => ?_
    simp only [Function.comp]
    split <;> simp
  have : (((Coo.ofRows rows).sumWhere p : ℕ) : ℝ) = (rows.countP p : ℝ) := by rw [h3, ← h, h2]
  exact_mod_cast this

theorem Coo.total_ofRows (rows : List κ) : (Coo.ofRows rows).total = rows.length := by
  have h : (((Coo.ofRows rows).total : ℕ) : ℝ) = rows.length := by
    have e : (Coo.ofRows rows).total = ∑ a ∈ rows.toFinset, cnt rows a :=
      sum_dedup rows (cnt rows)
    rw [e, Nat.cast_sum]
    exact sum_count rows
  exact_mod_cast h

theorem Coo.sum_cells (rows : List κ) (G : κ → ℝ) :
    ((Coo.ofRows rows).cells.map (fun e => (e.2 : ℝ) * G e.1)).sum = (rows.map G).sum := by
  rw [Coo.cells_ofRows, List.map_map, sum_map_eq_count rows, sum_dedup]
  rfl

theorem Coo.vals_length (rows : List κ) : (Coo.ofRows rows).vals.length = rows.toFinset.card := by
  simp [Coo.ofRows, List.card_toFinset]

theorem Coo.margin_getD (rows : List κ) (f : κ → Nat) (size j : Nat) (hj : j < size) :
    ((Coo.ofRows rows).margin f size).getD j 0 = rows.countP (fun r => decide (f r = j)) := by
  rw [Coo.margin, List.getD_eq_getElem?_getD, List.getElem?_map, List.getElem?_range hj]
  simp [Coo.sumWhere_ofRows]

omit [DecidableEq κ] in
@[simp] theorem Coo.margin_length (c : Coo κ) (f : κ → Nat) (size : Nat) :
    (c.margin f size).length = size := by simp [Coo.margin]

end coo

theorem prodU64_eq (l : List Nat) : prodU64 l = l.prod % 2 ^ 64 := by
  have key : ∀ (l : List Nat) (a : Nat), l.foldl (fun a b => (a * b) % 2 ^ 64) (a % 2 ^ 64) =
      (a * l.prod) % 2 ^ 64 := by
    intro l
    induction l with
    | nil => intro a; simp
    | cons b l ih =>
      intro a
      rw [List.foldl_cons, List.prod_cons, ← mul_assoc, ← ih (a * b)]
      congr 1
      rw [Nat.mod_mul_mod]
  have := key l 1
  rw [one_mul] at this
  exact this

theorem prodU64_eq_prod {l : List Nat} (h : l.prod < 2 ^ 64) : prodU64 l = l.prod := by
  rw [prodU64_eq, Nat.mod_eq_of_lt h]

theorem prod_le_pow (l : List Nat) (N : Nat) (h : ∀ x ∈ l, x ≤ N) : l.prod ≤ N ^ l.length := by
  induction l with
  | nil => simp
  | cons a l ih =>
    rw [List.prod_cons, List.length_cons, pow_succ, mul_comm]
    exact Nat.mul_le_mul (ih fun x hx => h x (by simp [hx])) (h a (by simp))

theorem log_list_prod {ι : Type} (l : List ι) (f : ι → ℝ) (h : ∀ i ∈ l, 0 < f i) :
    Real.log (l.map f).prod = (l.map (fun i => Real.log (f i))).sum := by
  induction l with
  | nil => simp
  | cons a l ih =>
    have h1 : 0 < (l.map f).prod := List.prod_pos (by
      intro x hx; obtain ⟨i, hi, rfl⟩ := List.mem_map.1 hx; exact h i (by simp [hi]))
    rw [List.map_cons, List.prod_cons, Real.log_mul (h a (by simp)).ne' h1.ne',
      ih (fun i hi => h i (by simp [hi])), List.map_cons, List.sum_cons]

section nd
variable {α : Type} [LinearOrder α] [Inhabited α]

theorem getD_npInverse (c : List α) (t : Nat) (ht : t < c.length) :
    (npInverse c).getD t 0 = npPos c (c.getD t default) := by
  rw [npInverse, List.getD_eq_getElem?_getD, List.getD_eq_getElem?_getD, List.getElem?_map,
    List.getElem?_eq_getElem ht]
  rfl

omit [LinearOrder α] in
theorem getD_mem (c : List α) (t : Nat) (ht : t < c.length) : c.getD t default ∈ c := by
  rw [List.getD_eq_getElem?_getD, List.getElem?_eq_getElem ht]
  exact List.getElem_mem ht

omit [LinearOrder α] in
theorem col_map_range (c : List α) (N : Nat) (h : c.length = N) :
    (List.range N).map (fun t => c.getD t default) = c := by
  subst h
  refine List.ext_getElem (by simp) fun i h1 h2 => ?_
  simp [List.getElem?_eq_getElem h2]

theorem indexRows_eq (data : List (List α)) (N : Nat) (hne : data ≠ [])
    (hl : ∀ c ∈ data, c.length = N) :
    indexRows data = (List.range N).map
      (fun t => data.map (fun c => npPos c (c.getD t default))) := by
  have h0 : (data.headD []).length = N := by
    cases data with
    | nil => exact absurd rfl hne
    | cons c cs => exact hl c (by simp)
  rw [indexRows, h0]
  refine List.map_congr_left fun t ht => ?_
  rw [List.map_map]
  refine List.map_congr_left fun c hc => ?_
  exact getD_npInverse c t (by rw [hl c hc]; exact List.mem_range.1 ht)

/-- index of sample `t` of variable `c` -/
theorem countP_index (c : List α) (N : Nat) (h : c.length = N) (t : Nat) (ht : t < N) :
    (List.range N).countP
      (fun u => decide (npPos c (c.getD u default) = npPos c (c.getD t default))) =
      cnt c (c.getD t default) := by
  conv_rhs => rw [← col_map_range c N h]
  rw [cnt_map]
  refine List.countP_congr fun u hu => ?_
  have h1 := getD_mem c u (by rw [h]; exact List.mem_range.1 hu)
  have h2 := getD_mem c t (by rw [h]; exact ht)
  simp only [decide_eq_true_eq]
  rw [npPos_inj h1 h2, col_map_range c N h]

theorem getD_map_of_lt {β δ : Type} (l : List β) (f : β → δ) (i : Nat) (d : δ) (hi : i < l.length) :
    (l.map f).getD i d = f l[i] := by
  rw [List.getD_eq_getElem?_getD, List.getElem?_map, List.getElem?_eq_getElem hi]
  rfl

theorem margins_zip (data : List (List α)) (N : Nat) (hne : data ≠ [])
    (hl : ∀ c ∈ data, c.length = N) (t : Nat) (ht : t < N) :
    (((miMargins data).zip
      (data.map (fun c => npPos c (c.getD t default)))).map (fun p => p.1.getD p.2 0)) =
      data.map (fun c => cnt c (c.getD t default)) := by
  unfold miMargins
  refine List.ext_getElem (by simp) fun i h1 h2 => ?_
  have hi : i < data.length := by simpa using h2
  simp only [List.getElem_map, List.getElem_zip, List.getElem_range]
  rw [getD_map_of_lt _ _ _ _ hi]
  have hc := hl data[i] (List.getElem_mem hi)
  rw [Coo.margin_getD _ _ _ _ (npPos_lt (getD_mem _ _ (by rw [hc]; exact ht)))]
  rw [indexRows_eq data N hne hl, List.countP_map]
  rw [← countP_index data[i] N hc t ht]
  refine List.countP_congr fun u _ => ?_
  simp only [Function.comp, decide_eq_true_eq]
  rw [getD_map_of_lt _ _ _ _ hi]

theorem index_row_inj (data : List (List α)) (N : Nat) (hl : ∀ c ∈ data, c.length = N)
    (s t : Nat) (hs : s < N) (ht : t < N) :
    data.map (fun c => npPos c (c.getD s default)) = data.map (fun c => npPos c (c.getD t default)) ↔
      Spec.row data s = Spec.row data t := by
  unfold Spec.row
  rw [List.map_inj_left, List.map_inj_left]
  refine forall₂_congr fun c hc => ?_
  exact npPos_inj (getD_mem c s (by rw [hl c hc]; exact hs)) (getD_mem c t (by rw [hl c hc]; exact ht))

theorem cnt_indexRows (data : List (List α)) (N : Nat) (hne : data ≠ [])
    (hl : ∀ c ∈ data, c.length = N) (t : Nat) (ht : t < N) :
    cnt (indexRows data) (data.map (fun c => npPos c (c.getD t default))) =
      cnt (Spec.rows N data) (Spec.row data t) := by
  rw [indexRows_eq data N hne hl, cnt_map, Spec.rows, cnt_map]
  refine List.countP_congr fun u hu => ?_
  simp only [decide_eq_true_eq]
  exact index_row_inj data N hl u t (List.mem_range.1 hu) ht

/-- the total correlation in sample form -/
theorem totalCorrelation_sample (data : List (List α)) (N : Nat) (hN : 0 < N)
    (hl : ∀ c ∈ data, c.length = N) :
    Spec.totalCorrelation N data =
      ((List.range N).map (fun t =>
        Real.log (cnt (Spec.rows N data) (Spec.row data t))
        - (data.map (fun c => Real.log (cnt c (c.getD t default)))).sum
        + ((data.length : ℝ) - 1) * Real.log N)).sum / N := by
  have hN' : (0:ℝ) < N := by exact_mod_cast hN
  have key : ∀ cs : List (List α), (∀ c ∈ cs, c.length = N) → (cs.map entropy).sum =
      ((List.range N).map (fun t =>
        - (cs.map (fun c => Real.log (cnt c (c.getD t default)))).sum
        + (cs.length : ℝ) * Real.log N)).sum / N := by
    intro cs hcs
    induction cs with
    | nil => simp
    | cons c cs ih =>
      rw [List.map_cons, List.sum_cons, ih (fun d hd => hcs d (by simp [hd]))]
      have h1 := entropy_map_eq (List.range N) (fun t => c.getD t default)
      have hc := hcs c (by simp)
      rw [col_map_range c N hc] at h1
      rw [h1, List.length_range, ← add_div, ← sum_map_add']
      congr 2
      refine List.map_congr_left fun t ht => ?_
      have hm := getD_mem c t (by rw [hc]; exact List.mem_range.1 ht)
      have hp : (0:ℝ) < cnt c (c.getD t default) := by exact_mod_cast cnt_pos_iff.2 hm
      unfold freq
      rw [hc, Real.log_div hp.ne' hN'.ne', List.map_cons, List.sum_cons, List.length_cons]
      push_cast; ring
  rw [Spec.totalCorrelation, key data hl, Spec.rows, entropy_map_eq, List.length_range, ← sub_div,
    ← sum_map_sub']
  congr 2
  refine List.map_congr_left fun t ht => ?_
  have hm : Spec.row data t ∈ (List.range N).map (Spec.row data) := List.mem_map_of_mem ht
  have hp : (0:ℝ) < cnt ((List.range N).map (Spec.row data)) (Spec.row data t) := by
    exact_mod_cast cnt_pos_iff.2 hm
  unfold freq
  rw [List.length_map, List.length_range, Real.log_div hp.ne' hN'.ne']
  ring

theorem card_indexRows (data : List (List α)) (N : Nat) (hne : data ≠ [])
    (hl : ∀ c ∈ data, c.length = N) :
    (indexRows data).toFinset.card = (Spec.rows N data).toFinset.card := by
  rw [indexRows_eq data N hne hl, Spec.rows]
  refine Finset.card_nbij' (i := fun r => if h : ∃ t, t < N ∧
      data.map (fun c => npPos c (c.getD t default)) = r then Spec.row data h.choose else [])
    (j := fun r => if h : ∃ t, t < N ∧ Spec.row data t = r then
      data.map (fun c => npPos c (c.getD h.choose default)) else []) ?_ ?_ ?_ ?_
  · intro r hr
    simp only [Finset.mem_coe, List.mem_toFinset, List.mem_map, List.mem_range] at hr
    have h : ∃ t, t < N ∧ data.map (fun c => npPos c (c.getD t default)) = r := hr
    simp only [Finset.mem_coe, List.mem_toFinset, List.mem_map, List.mem_range, dif_pos h]
    exact ⟨h.choose, h.choose_spec.1, rfl⟩
  · intro r hr
    simp only [Finset.mem_coe, List.mem_toFinset, List.mem_map, List.mem_range] at hr
    have h : ∃ t, t < N ∧ Spec.row data t = r := hr
    simp only [Finset.mem_coe, List.mem_toFinset, List.mem_map, List.mem_range, dif_pos h]
    exact ⟨h.choose, h.choose_spec.1, rfl⟩
  · intro r hr
    simp only [Finset.mem_coe, List.mem_toFinset, List.mem_map, List.mem_range] at hr
    have h : ∃ t, t < N ∧ data.map (fun c => npPos c (c.getD t default)) = r := hr
    have h' : ∃ t, t < N ∧ Spec.row data t = Spec.row data h.choose := ⟨_, h.choose_spec.1, rfl⟩
    simp only [dif_pos h, dif_pos h']
    rw [(index_row_inj data N hl _ _ h'.choose_spec.1 h.choose_spec.1).2 h'.choose_spec.2]
    exact h.choose_spec.2
  · intro r hr
    simp only [Finset.mem_coe, List.mem_toFinset, List.mem_map, List.mem_range] at hr
    have h : ∃ t, t < N ∧ Spec.row data t = r := hr
    have h' : ∃ t, t < N ∧ data.map (fun c => npPos c (c.getD t default)) =
      data.map (fun c => npPos c (c.getD h.choose default)) := ⟨_, h.choose_spec.1, rfl⟩
    simp only [dif_pos h, dif_pos h']
    rw [(index_row_inj data N hl _ _ h'.choose_spec.1 h.choose_spec.1).1 h'.choose_spec.2]
    exact h.choose_spec.2

/-- exact value of the sparse n-dimensional implementation when no variable is constant and no
product of marginal counts reaches `2^64` -/
theorem miNdInt_ok (data : List (List α)) (N : Nat) (hN : 0 < N) (hne : data ≠ [])
    (hl : ∀ c ∈ data, c.length = N) (hc : ∀ c ∈ data, (npUnique c).length ≠ 1)
    (hov : ∀ t < N, (data.map (fun c => cnt c (c.getD t default))).prod < 2 ^ 64)
    {b : Base} (hb : b.Valid) (mm : Option Base) :
    miNdInt (logBase b) data mm =
      addCorr mm (fun base => millerMadowCorr (data.map (fun v => (npUnique v).length))
        (Spec.rows N data).toFinset.card N base none) (Spec.totalCorrelation N data / b.ln) := by
  have h0 : (data.headD []).length = N := by
    cases data with
    | nil => exact absurd rfl hne
    | cons c cs => exact hl c (by simp)
  have hN' : (0:ℝ) < N := by exact_mod_cast hN
  unfold miNdInt
  simp only []
  rw [if_neg]
  swap
  · simp only [miMargins, List.any_map, List.any_eq_true, List.mem_range, Function.comp, Coo.margin_length,
      decide_eq_true_eq, not_exists, not_and]
    intro i hi
    rw [getD_map_of_lt _ _ _ _ hi]
    exact hc _ (List.getElem_mem hi)
  have hrl : (indexRows data).length = N := by rw [indexRows_eq data N hne hl]; simp
  rw [Coo.total_ofRows, hrl, Coo.vals_length, card_indexRows data N hne hl, h0]
  rw [mapM_ok (g := fun e => (e.2 : ℝ) * ((fun r => (Real.log (cnt (indexRows data) r)
      - Real.log (((((miMargins data).zip r).map (fun p => p.1.getD p.2 0)).prod : ℕ) : ℝ)
      + ((data.length : ℝ) - 1) * Real.log N) / N / b.ln) e.1))]
  · simp only [bind, Except.bind]
    congr 1
    refine (Coo.sum_cells (indexRows data) (fun r => (Real.log (cnt (indexRows data) r)
      - Real.log (((((miMargins data).zip r).map (fun p => p.1.getD p.2 0)).prod : ℕ) : ℝ)
      + ((data.length : ℝ) - 1) * Real.log N) / N / b.ln)).trans ?_
    rw [totalCorrelation_sample data N hN hl]
    conv_lhs => rw [indexRows_eq data N hne hl]
    rw [List.map_map, ← sum_map_div', ← sum_map_div']
    congr 1
    refine List.map_congr_left fun t ht => ?_
    simp only [Function.comp]
    rw [margins_zip data N hne hl t (List.mem_range.1 ht)]
    rw [← indexRows_eq data N hne hl, cnt_indexRows data N hne hl t (List.mem_range.1 ht)]
    congr 4
    rw [← log_list_prod data (fun c => ((cnt c (c.getD t default) : ℕ) : ℝ))]
    · congr 1
      rw [Nat.cast_list_prod, List.map_map]; rfl
    · intro c hcm
      exact_mod_cast cnt_pos_iff.2 (getD_mem c t (by rw [hl c hcm]; exact List.mem_range.1 ht))
  · intro e he
    obtain ⟨h1, h2⟩ := Coo.mem_cells.1 he
    have h1' := h1
    rw [indexRows_eq data N hne hl] at h1
    obtain ⟨t, ht, hr⟩ := List.mem_map.1 h1
    have ht' := List.mem_range.1 ht
    have hv : (0:ℝ) < e.2 := by rw [h2]; exact_mod_cast cnt_pos_iff.2 h1'
    have hmz := margins_zip data N hne hl t ht'
    rw [hr] at hmz
    have hpos : ∀ c ∈ data, 0 < cnt c (c.getD t default) := fun c hcm =>
      cnt_pos_iff.2 (getD_mem c t (by rw [hl c hcm]; exact ht'))
    have hop : 0 < (data.map (fun c => cnt c (c.getD t default))).prod := by
      refine List.prod_pos fun x hx => ?_
      obtain ⟨c, hcm, rfl⟩ := List.mem_map.1 hx
      exact hpos c hcm
    beta_reduce
    rw [hmz, prodU64_eq_prod (hov t ht')]
    have hop' : (0:ℝ) < (((data.map (fun c => cnt c (c.getD t default))).prod : ℕ) : ℝ) := by
      exact_mod_cast hop
    rw [logBase_ok hb hv, logBase_ok hb hN', logBase_ok hb hop']
    simp only [bind, Except.bind, pure, Except.pure]
    rw [← h2]
    have hml : (miMargins data).length = data.length := by simp [miMargins]
    rw [hml]
    congr 1
    field_simp
    ring

end nd

end Verif
