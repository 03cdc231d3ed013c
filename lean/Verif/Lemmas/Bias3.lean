import Verif.Lemmas.Bias2

/-! # Helper lemmas: Zhang, Bonachela -/

namespace Verif

open Spec

/-- inner sum of the published Zhang formula -/
noncomputable def zhangInner (N n : Nat) : ℝ :=
  ∑ v ∈ Finset.Icc 1 (N - n), 1 / (v : ℝ) *
      ∏ j ∈ Finset.range v, (1 + (1 - (n : ℝ)) / ((N : ℝ) - 1 - j))

theorem list_sum_range (m : Nat) (f : Nat → ℝ) :
    ((List.range m).map f).sum = ∑ i ∈ Finset.range m, f i := by
  rw [← List.sum_toFinset _ List.nodup_range, List.toFinset_range]

theorem list_prod_range (m : Nat) (f : Nat → ℝ) :
    ((List.range m).map f).prod = ∏ i ∈ Finset.range m, f i := by
  rw [← List.prod_toFinset _ List.nodup_range, List.toFinset_range]

theorem zhangT2_eq (N M n : Nat) (hn : n ≤ N) (hM : N - n ≤ M) :
    zhangT2 (N : Int) (M : Int) (n : Int) = zhangInner N n := by
  unfold zhangT2
  simp only [Int.toNat_natCast]
  set f : Nat → ℝ := fun i => if ((i : Int) + 1) ≤ (N : Int) - n then
    1 - ((n : ℝ) - 1) / ((N : ℝ) - ((i : ℝ) + 1)) else 1 with hf
  have hfac : ((List.range M).map (fun i : Nat => (i : Int) + 1)).map
      (fun k : Int => if k ≤ (N : Int) - n then 1 - ((((n : Nat) : Int) : ℝ) - 1) / ((((N : Nat) : Int) : ℝ) - k) else 1) =
      (List.range M).map f := by
    rw [List.map_map]
    refine List.map_congr_left fun i _ => ?_
    simp only [Function.comp, hf]
    push_cast
    rfl
  rw [hfac]
  have hcum : npCumprod ((List.range M).map f) =
      (List.range M).map (fun i => ∏ j ∈ Finset.range (i + 1), f j) := by
    unfold npCumprod
    rw [List.length_map, List.length_range]
    refine List.map_congr_left fun i hi => ?_
    have hi := List.mem_range.1 hi
    rw [← List.map_take, List.take_range, min_eq_left (by omega), list_prod_range]
  rw [hcum, zip_map_map, List.map_map, list_sum_range]
  have e : ∀ i ∈ Finset.range M,
      ((fun e : Int × ℝ => (if e.1 ≤ (N : Int) - n then e.2 else 0) * (1 / (e.1 : ℝ))) ∘
        fun i : Nat => ((i : Int) + 1, ∏ j ∈ Finset.range (i + 1), f j)) i =
      if i < N - n then 1 / ((i : ℝ) + 1) * ∏ j ∈ Finset.range (i + 1),
        (1 + (1 - (n : ℝ)) / ((N : ℝ) - 1 - j)) else 0 := by
    intro i _
    simp only [Function.comp]
    by_cases hi : i < N - n
    · rw [if_pos (by omega), if_pos hi]
      have : ∏ j ∈ Finset.range (i + 1), f j =
          ∏ j ∈ Finset.range (i + 1), (1 + (1 - (n : ℝ)) / ((N : ℝ) - 1 - j)) := by
        refine Finset.prod_congr rfl fun j hj => ?_
        have hj := Finset.mem_range.1 hj
        simp only [hf]
        rw [if_pos (by omega), show (N : ℝ) - ((j : ℝ) + 1) = (N : ℝ) - 1 - j by ring]
        ring
      rw [this]; push_cast; ring
    · rw [if_neg (by omega), if_neg hi]; ring
  rw [Finset.sum_congr rfl e, ← Finset.sum_filter]
  unfold zhangInner
  have hfil : (Finset.range M).filter (fun i => i < N - n) = Finset.range (N - n) := by
    ext i; simp; omega
  rw [hfil, Finset.range_eq_Ico, ← Finset.Ico_add_one_right_eq_Icc,
    ← Finset.sum_Ico_add' (fun v : ℕ => 1 / (v : ℝ) * ∏ j ∈ Finset.range v,
      (1 + (1 - (n : ℝ)) / ((N : ℝ) - 1 - j))) 0 (N - n) 1]
  refine Finset.sum_congr rfl fun i _ => ?_
  push_cast; rfl

theorem zhangInner_nonneg (N n : Nat) : 0 ≤ zhangInner N n := by
  unfold zhangInner
  refine Finset.sum_nonneg fun v hv => mul_nonneg (by positivity) (Finset.prod_nonneg fun j hj => ?_)
  have hv := Finset.mem_Icc.1 hv
  have hj := Finset.mem_range.1 hj
  have h1 : ((n + j + 1 : ℕ) : ℝ) ≤ N := by exact_mod_cast (by omega : n + j + 1 ≤ N)
  push_cast at h1
  rcases Nat.eq_zero_or_pos n with rfl | hn
  · simp
    have : (0:ℝ) ≤ N - 1 - j := by simp at h1; linarith
    positivity
  · have hn' : (1:ℝ) ≤ n := by exact_mod_cast hn
    have hpos : (0:ℝ) < (N : ℝ) - 1 - j := by linarith
    have : 1 + (1 - (n : ℝ)) / ((N : ℝ) - 1 - j) = ((N : ℝ) - n - j) / ((N : ℝ) - 1 - j) := by
      field_simp; ring
    rw [this]
    apply div_nonneg _ hpos.le
    linarith

theorem minInt_le {l : List Int} {x : Int} (h : x ∈ l) : minInt l ≤ x := by
  unfold minInt
  have key : ∀ (l : List Int) (a : Int), l.foldl min a ≤ a ∧ ∀ x ∈ l, l.foldl min a ≤ x := by
    intro l
    induction l with
    | nil => intro a; simp
    | cons b l ih =>
      intro a
      obtain ⟨h1, h2⟩ := ih (min a b)
      refine ⟨h1.trans (min_le_left _ _), ?_⟩
      intro x hx
      rcases List.mem_cons.1 hx with rfl | hx
      · exact h1.trans (min_le_right _ _)
      · exact h2 x hx
  exact (key l _).2 x h

theorem minInt_mem {l : List Int} (h : l ≠ []) : minInt l ∈ l := by
  unfold minInt
  have key : ∀ (l : List Int) (a : Int), l.foldl min a = a ∨ l.foldl min a ∈ l := by
    intro l
    induction l with
    | nil => intro a; simp
    | cons b l ih =>
      intro a
      rcases ih (min a b) with h1 | h1
      · rcases min_choice a b with h2 | h2
        · exact Or.inl (h1.trans h2)
        · right; rw [List.foldl_cons, h1, h2]; simp
      · right; simp [h1]
  cases l with
  | nil => exact absurd rfl h
  | cons a l =>
    rcases key (a :: l) ((a :: l).headD 0) with h1 | h1
    · rw [h1]; simp
    · exact h1

section
variable {α : Type} [LinearOrder α]

/-- symbols that are not the only one -/
def zhangSyms (xs : List α) : List α :=
  (npUnique xs).filter (fun a => decide (cnt xs a < xs.length))

theorem zhangValid_eq (xs : List α) :
    zhangValid (mkData xs) = (zhangSyms xs).map (fun a => ((cnt xs a : Nat) : Int)) := by
  unfold zhangValid zhangSyms
  rw [mkData_counts, mkData_N, List.filter_map]
  congr 1
  refine List.filter_congr fun a ha => ?_
  have := cnt_pos_iff.2 (mem_npUnique.1 ha)
  simp; omega

theorem zhangMax (xs : List α) (hv : zhangSyms xs ≠ []) :
    ∃ m : Nat, 0 < m ∧ m < xs.length ∧ minInt (zhangValid (mkData xs)) = (m : Int) ∧
      (mkData xs).N - minInt (zhangValid (mkData xs)) = ((xs.length - m : ℕ) : Int) ∧
      ∀ a ∈ zhangSyms xs, m ≤ cnt xs a := by
  have hne : zhangValid (mkData xs) ≠ [] := by rw [zhangValid_eq]; simpa using hv
  have hm := minInt_mem hne
  have hle : ∀ x ∈ zhangValid (mkData xs), minInt (zhangValid (mkData xs)) ≤ x :=
    fun x hx => minInt_le hx
  rw [zhangValid_eq] at hm
  obtain ⟨a, ha, he⟩ := List.mem_map.1 hm
  rw [← zhangValid_eq] at he
  simp only [zhangSyms, List.mem_filter, decide_eq_true_eq, mem_npUnique] at ha
  refine ⟨cnt xs a, cnt_pos_iff.2 ha.1, ha.2, he.symm, ?_, ?_⟩
  · rw [← he, mkData_N]; omega
  · intro c hc
    have := hle (cnt xs c) (by rw [zhangValid_eq]; exact List.mem_map.2 ⟨c, hc, rfl⟩)
    rw [← he] at this
    exact_mod_cast this

theorem zhangInner_self (N : Nat) : zhangInner N N = 0 := by simp [zhangInner]

theorem zhang_eq (xs : List α) :
    zhang xs = ∑ a ∈ xs.toFinset, freq xs a * zhangInner xs.length (cnt xs a) := rfl

theorem sum_zhangSyms (xs : List α) (f : α → ℝ) (h0 : ∀ a ∈ xs, cnt xs a = xs.length → f a = 0) :
    ((zhangSyms xs).map f).sum = ∑ a ∈ xs.toFinset, f a := by
  unfold zhangSyms
  rw [← List.sum_toFinset _ ((npUnique_nodup xs).filter _), List.toFinset_filter, npUnique_toFinset]
  rw [Finset.sum_filter]
  refine Finset.sum_congr rfl fun a ha => ?_
  by_cases hc : cnt xs a < xs.length
  · simp [hc]
  · have : cnt xs a = xs.length := le_antisymm (cnt_le_length xs a) (by omega)
    simp [hc, h0 a (List.mem_toFinset.1 ha) this]

theorem zhangSimple_ok (xs : List α) {b : Base} (hb : b.Valid) :
    zhangSimple b (mkData xs) = .ok (zhang xs / b.ln) := by
  unfold zhangSimple
  simp only
  by_cases hv : zhangSyms xs = []
  · have : zhang xs = 0 := by
      rw [zhang_eq, ← sum_zhangSyms xs _ (fun a _ h => by rw [h, zhangInner_self, mul_zero]), hv]
      simp
    rw [zhangValid_eq, hv, if_pos (by simp), this, zero_div]
  · obtain ⟨m, hm0, hm1, he, he2, hle⟩ := zhangMax xs hv
    rw [if_neg (by rw [zhangValid_eq]; simpa using hv), if_neg (by rw [he2]; omega), scaleBase_ok hb]
    congr 2
    rw [he2, zhangValid_eq, List.map_map, zhang_eq,
      ← sum_zhangSyms xs _ (fun a _ h => by rw [h, zhangInner_self, mul_zero])]
    congr 1
    refine List.map_congr_left fun a ha => ?_
    simp only [Function.comp]
    rw [mkData_N, zhangT2_eq _ _ _ (cnt_le_length xs a) (by have := hle a ha; omega)]
    unfold freq
    push_cast; ring

theorem dictGet_append_right {A B : Type} [DecidableEq A] (l1 l2 : List (A × B)) (k : A)
    (v : B) (h : dictGet l2 k = .ok v) : dictGet (l1 ++ l2) k = .ok v := by
  unfold dictGet at *
  rw [List.reverse_append, List.find?_append]
  cases hf : l2.reverse.find? (fun e => decide (e.1 = k)) with
  | none => rw [hf] at h; simp at h
  | some e => rw [hf] at h; simpa using h

theorem dictGet_append_left {A B : Type} [DecidableEq A] (l1 l2 : List (A × B)) (k : A)
    (h : ∀ e ∈ l2, e.1 ≠ k) : dictGet (l1 ++ l2) k = dictGet l1 k := by
  unfold dictGet
  rw [List.reverse_append, List.find?_append]
  have : l2.reverse.find? (fun e => decide (e.1 = k)) = none := by
    rw [List.find?_eq_none]
    intro e he
    simpa using h e (List.mem_reverse.1 he)
  rw [this]; rfl

theorem zhangDict_get (xs : List α) {a : α} (ha : a ∈ xs) :
    dictGet (zhangDict (mkData xs)) a = .ok (zhangInner xs.length (cnt xs a)) := by
  unfold zhangDict
  have hz : (mkData xs).uniq.zip (mkData xs).counts =
      (npUnique xs).map (fun c => (c, ((cnt xs c : Nat) : Int))) := by
    rw [mkData_uniq, mkData_counts, zip_map_self]
  simp only [hz, List.filter_map]
  have hval : (npUnique xs).filter ((fun e : α × Int => decide (0 < e.2) && decide (e.2 < (mkData xs).N)) ∘
      fun c => (c, ((cnt xs c : Nat) : Int))) = zhangSyms xs := by
    refine List.filter_congr fun c hc => ?_
    have := cnt_pos_iff.2 (mem_npUnique.1 hc)
    simp [Function.comp, mkData_N]; omega
  rw [hval, List.map_map, List.map_map]
  by_cases hc : cnt xs a < xs.length
  · have hmem : a ∈ zhangSyms xs := by simp [zhangSyms, ha, hc]
    have hv : zhangSyms xs ≠ [] := List.ne_nil_of_mem hmem
    obtain ⟨m, hm0, hm1, he, he2, hle⟩ := zhangMax xs hv
    refine dictGet_append_right _ _ _ _ ?_
    rw [he2]
    have := dictGet_map (zhangSyms xs) (fun c => zhangT2 (mkData xs).N ((xs.length - m : ℕ) : Int)
      ((cnt xs c : Nat) : Int)) hmem
    rw [mkData_N, zhangT2_eq _ _ _ (cnt_le_length xs a) (by have := hle a hmem; omega)] at this
    rw [← this]
    congr 1
    refine List.map_congr_left fun c _ => ?_
    simp [Function.comp, mkData_N]
    intro h; omega
  · have hfull : cnt xs a = xs.length := le_antisymm (cnt_le_length xs a) (by omega)
    rw [dictGet_append_left, hfull, zhangInner_self]
    · have hm : a ∈ (npUnique xs).filter ((fun e : α × Int => decide (e.2 = 0) || decide ((mkData xs).N ≤ e.2)) ∘
          fun c => (c, ((cnt xs c : Nat) : Int))) := by
        rw [List.mem_filter]
        exact ⟨mem_npUnique.2 ha, by simp [Function.comp, mkData_N, hfull]⟩
      exact dictGet_map _ (fun _ => (0:ℝ)) hm
    · intro e he
      obtain ⟨c, hcm, rfl⟩ := List.mem_map.1 he
      simp only [zhangSyms, List.mem_filter, decide_eq_true_eq] at hcm
      simp only [Function.comp, ne_eq]
      rintro rfl
      exact hc hcm.2

theorem zhangLocal_ok (xs : List α) {b : Base} (hb : b.Valid) :
    zhangLocal b (mkData xs) = .ok (xs.map (fun a => zhangInner xs.length (cnt xs a) / b.ln)) := by
  unfold zhangLocal
  simp only [mkData_samples, bind, Except.bind,
    mapM_ok xs (g := fun a => zhangInner xs.length (cnt xs a)) (fun a ha => zhangDict_get xs ha)]
  rw [mapM_map']
  exact mapM_ok xs fun a _ => scaleBase_ok hb _

/-! ### Bonachela -/

theorem bonachelaSimple_ok (xs : List α) {b : Base} (hb : b.Valid) :
    bonachelaSimple b (mkData xs) = .ok (bonachela xs / b.ln) := by
  unfold bonachelaSimple
  dsimp only
  have hd : ((((xs.length : ℕ) : ℤ) : ℝ) + 2) ≠ 0 := by
    rw [Int.cast_natCast]; positivity
  rw [mkData_N, npDiv_ok hd]
  simp only [bind, Except.bind, scaleBase_ok hb]
  congr 2
  rw [mkData_counts, List.map_map, sum_npUnique', bonachela, one_div, inv_mul_eq_div, Int.cast_natCast]
  congr 1
  refine Finset.sum_congr rfl fun a ha => ?_
  simp only [Function.comp, List.map_map]
  push_cast
  congr 1
  rw [show ((xs.length : ℤ) + 1).toNat = xs.length + 1 by omega, list_sum_range]
  have e : ∀ i ∈ Finset.range (xs.length + 1),
      (if ((cnt xs a : Nat) : Int) + 1 < (i : Int) + 2 then (1:ℝ) else 0) * (1 / ((((i : Int) + 2 : Int)) : ℝ)) =
      if cnt xs a ≤ i then 1 / ((i + 2 : ℕ) : ℝ) else 0 := by
    intro i _
    by_cases h : cnt xs a ≤ i
    · rw [if_pos (by omega), if_pos h]; push_cast; ring
    · rw [if_neg (by omega), if_neg h]; ring
  simp only [Function.comp]
  rw [Finset.sum_congr rfl e, ← Finset.sum_filter]
  have hfil : (Finset.range (xs.length + 1)).filter (fun i => cnt xs a ≤ i) =
      Finset.Ico (cnt xs a) (xs.length + 1) := by
    ext i; simp; omega
  rw [hfil, Finset.sum_Ico_add' (fun j : ℕ => 1 / (j : ℝ)) (cnt xs a) (xs.length + 1) 2,
    ← Finset.Ico_add_one_right_eq_Icc]
  rfl

theorem bonachela_nonneg (xs : List α) : 0 ≤ bonachela xs := by
  unfold bonachela
  refine mul_nonneg (by positivity) (Finset.sum_nonneg fun a _ => mul_nonneg (by positivity)
    (Finset.sum_nonneg fun j _ => by positivity))

end

end Verif
