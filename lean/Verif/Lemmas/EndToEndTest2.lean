import Verif.Lemmas.EndToEndTest

/-!
# Statistical tests end to end: resampled rows
-/

namespace Verif

open Spec

/-! ## Rows by number -/

section
variable {α : Type} [Inhabited α]

theorem selectRows_range (x : List α) {k : Nat} (h : k ≤ x.length) : selectRows x (List.range k) = x.take k := by
  refine List.ext_getElem (by simp [selectRows, h]) fun i h1 h2 => ?_
  have hi : i < x.length := by simp [selectRows] at h1; omega
  simp [selectRows, List.getD_eq_getElem?_getD, hi]

theorem selectRows_drop (x : List α) (k : Nat) : selectRows x ((List.range x.length).drop k) = x.drop k := by
  refine List.ext_getElem (by simp [selectRows]) fun i h1 h2 => ?_
  have hi : k + i < x.length := by simp at h2; omega
  simp [selectRows, List.getD_eq_getElem?_getD, hi]

theorem selectRows_selectRows (x : List α) (a b : List Nat) (hb : ∀ i ∈ b, i < a.length) :
    selectRows (selectRows x a) b = selectRows x (selectRows a b) := by
  unfold selectRows
  rw [List.map_map]
  refine List.map_congr_left fun i hi => ?_
  have := hb i hi
  simp [List.getD_eq_getElem?_getD, this]

theorem selectRows_map_lt {β : Type} [Inhabited β] (f : α → β) (x : List α) (a : List Nat) (ha : ∀ i ∈ a, i < x.length) :
    selectRows (x.map f) a = (selectRows x a).map f := by
  unfold selectRows
  rw [List.map_map]
  refine List.map_congr_left fun i hi => ?_
  have := ha i hi
  simp [List.getD_eq_getElem?_getD, this]

theorem selectRows_length (x : List α) (a : List Nat) : (selectRows x a).length = a.length := by simp [selectRows]

end

theorem keptX_length (n : Nat) (o : Int) : (keptX n o).length = n - o.natAbs := by
  unfold keptX; split_ifs <;> simp <;> omega

theorem keptY_length (n : Nat) (o : Int) : (keptY n o).length = n - o.natAbs := by
  unfold keptY; split_ifs <;> simp <;> omega

theorem keptX_lt {n : Nat} {o : Int} : ∀ i ∈ keptX n o, i < n := by
  intro i hi
  unfold keptX at hi
  split_ifs at hi
  · have := List.mem_range.1 hi; omega
  · exact List.mem_range.1 (List.mem_of_mem_drop hi)

theorem keptY_lt {n : Nat} {o : Int} : ∀ i ∈ keptY n o, i < n := by
  intro i hi
  unfold keptY at hi
  split_ifs at hi
  · exact List.mem_range.1 (List.mem_of_mem_drop hi)
  · have := List.mem_range.1 hi; omega

theorem slice_keptX {α : Type} [Inhabited α] (u : List α) (o : Int) :
    (0 < o → pySlice u none (orNone (-o)) = selectRows u (keptX u.length o)) ∧
    (o < 0 → pySlice u (some (-o)) none = selectRows u (keptX u.length o)) ∧
    (o = 0 → u = selectRows u (keptX u.length o)) := by
  refine ⟨fun h => ?_, fun h => ?_, fun h => ?_⟩
  · rw [keptX, if_pos h.le, selectRows_range _ (by omega)]
    obtain ⟨n, rfl⟩ := Int.eq_ofNat_of_zero_le h.le
    rw [show ((n : Int)).toNat = n from rfl]
    exact pySlice_stop_neg u n (by omega)
  · rw [keptX, if_neg (by omega), selectRows_drop]
    obtain ⟨n, hn⟩ := Int.eq_ofNat_of_zero_le (show 0 ≤ -o by omega)
    rw [hn, pySlice_start]; rfl
  · subst h
    rw [keptX, if_pos le_rfl, selectRows_range _ (by simp)]
    simp

theorem slice_keptY {α : Type} [Inhabited α] (u : List α) (o : Int) :
    (0 < o → pySlice u (some o) none = selectRows u (keptY u.length o)) ∧
    (o < 0 → pySlice u none (orNone o) = selectRows u (keptY u.length o)) ∧
    (o = 0 → u = selectRows u (keptY u.length o)) := by
  refine ⟨fun h => ?_, fun h => ?_, fun h => ?_⟩
  · rw [keptY, if_pos h.le, selectRows_drop]
    obtain ⟨n, rfl⟩ := Int.eq_ofNat_of_zero_le h.le
    rw [pySlice_start]; rfl
  · rw [keptY, if_neg (by omega), selectRows_range _ (by omega)]
    obtain ⟨n, hn⟩ := Int.eq_ofNat_of_zero_le (show 0 ≤ -o by omega)
    have e : o = -(n : Int) := by omega
    subst e
    rw [neg_neg]
    exact pySlice_stop_neg u n (by omega)
  · subst h
    rw [keptY, if_pos le_rfl, Int.toNat_zero, List.drop_zero, selectRows_range _ le_rfl, List.take_length]

theorem e2t_miInit_pair {α : Type} [Inhabited α] {u w : List α} {o' : Option Int} {d : List (List α)} (h : miInit [u, w] o' = .ok d) :
    ∃ o, o' = some o ∧ u.length = w.length ∧ d = [selectRows u (keptX u.length o), selectRows w (keptY w.length o)] := by
  unfold miInit at h
  simp only [List.length_cons, List.length_nil, List.headD_cons, List.all_cons, List.all_nil, decide_true, Bool.true_and, Bool.and_true] at h
  rw [if_neg (by omega), if_neg (by omega)] at h
  split_ifs at h with hl
  have hl := of_decide_eq_true (Bool.not_eq_false _ ▸ hl)
  cases o' with
  | none => cases h
  | some o =>
    refine ⟨o, rfl, hl.symm, ?_⟩
    obtain ⟨x1, x2, x3⟩ := slice_keptX u o
    obtain ⟨y1, y2, y3⟩ := slice_keptY w o
    simp only [List.getD_cons_zero, List.getD_cons_succ] at h
    split_ifs at h with h1 h2
    · cases h; rw [x1 h1, y1 h1]
    · cases h; rw [x2 h2, y2 h2]
    · cases h
      have ho : o = 0 := by omega
      rw [← x3 ho, ← y3 ho]

theorem miInit_zero {α : Type} {u w : List α} (h : u.length = w.length) : miInit [u, w] (some 0) = .ok [u, w] := by
  unfold miInit
  simp [h]

theorem KVar.sel_slice_X (v : KVar) (o : Int) :
    (0 < o → v.slice none (orNone (-o)) = v.sel (keptX v.len o)) ∧ (o < 0 → v.slice (some (-o)) none = v.sel (keptX v.len o)) ∧
    (o = 0 → v = v.sel (keptX v.len o)) := by
  cases v with
  | one xs =>
    obtain ⟨x1, x2, x3⟩ := slice_keptX xs o
    exact ⟨fun h => congrArg KVar.one (x1 h), fun h => congrArg KVar.one (x2 h), fun h => congrArg KVar.one (x3 h)⟩
  | two a =>
    obtain ⟨x1, x2, x3⟩ := slice_keptX a.rows o
    exact ⟨fun h => congrArg (fun r => KVar.two ⟨a.cols, r⟩) (x1 h), fun h => congrArg (fun r => KVar.two ⟨a.cols, r⟩) (x2 h),
      fun h => congrArg (fun r => KVar.two ⟨a.cols, r⟩) (x3 h)⟩

theorem KVar.sel_slice_Y (v : KVar) (o : Int) :
    (0 < o → v.slice (some o) none = v.sel (keptY v.len o)) ∧ (o < 0 → v.slice none (orNone o) = v.sel (keptY v.len o)) ∧
    (o = 0 → v = v.sel (keptY v.len o)) := by
  cases v with
  | one xs =>
    obtain ⟨x1, x2, x3⟩ := slice_keptY xs o
    exact ⟨fun h => congrArg KVar.one (x1 h), fun h => congrArg KVar.one (x2 h), fun h => congrArg KVar.one (x3 h)⟩
  | two a =>
    obtain ⟨x1, x2, x3⟩ := slice_keptY a.rows o
    exact ⟨fun h => congrArg (fun r => KVar.two ⟨a.cols, r⟩) (x1 h), fun h => congrArg (fun r => KVar.two ⟨a.cols, r⟩) (x2 h),
      fun h => congrArg (fun r => KVar.two ⟨a.cols, r⟩) (x3 h)⟩

theorem kmiInit_pair {u w : KVar} {o' : Option Int} {d : List KVar} (h : kmiInit [u, w] o' false = .ok d) :
    ∃ o, o' = some o ∧ u.len = w.len ∧ d = [u.sel (keptX u.len o), w.sel (keptY w.len o)] := by
  unfold kmiInit at h
  simp only [List.length_cons, List.length_nil, List.headD_cons, List.all_cons, List.all_nil, decide_true, Bool.true_and, Bool.and_true,
    Bool.false_eq_true, if_false] at h
  rw [if_neg (by omega), if_neg (by omega)] at h
  split_ifs at h with hl
  · cases h
  have hl := of_decide_eq_true (Bool.not_eq_false _ ▸ hl)
  cases o' with
  | none => cases h
  | some o =>
    refine ⟨o, rfl, hl.symm, ?_⟩
    obtain ⟨x1, x2, x3⟩ := u.sel_slice_X o
    obtain ⟨y1, y2, y3⟩ := w.sel_slice_Y o
    simp only [List.getD_cons_zero, List.getD_cons_succ] at h
    split_ifs at h with h1 h2
    · cases h; rw [x1 h1, y1 h1]
    · cases h; rw [x2 h2, y2 h2]
    · cases h
      have ho : o = 0 := by omega
      rw [← x3 ho, ← y3 ho]

theorem e2t_kmiInit_zero {u w : KVar} (h : u.len = w.len) : kmiInit [u, w] (some 0) false = .ok [u, w] := by
  unfold kmiInit
  simp [h]

/-! ## Python arrays -/

theorem toInts_pick (x : PyData) (rows : List Nat) : (x.pick rows).toInts = x.toInts.map (fun u => selectRows u rows) := by
  cases x <;> rfl

theorem size_toInts {x : PyData} {u : List Int} (h : x.toInts = some u) : x.size = u.length := by
  cases x <;> cases h; rfl

theorem toKVar_pick (x : PyData) (rows : List Nat) (hr : ∀ i ∈ rows, i < x.size) :
    (x.pick rows).toKVar = x.toKVar.map (fun u => u.sel rows) := by
  cases x with
  | ints xs =>
    show some (KVar.one (asReals _)) = some (KVar.one (selectRows (asReals xs) rows))
    exact congrArg (fun r => some (KVar.one r)) (selectRows_map_lt (fun z : Int => (z : ℝ)) xs rows hr).symm
  | reals xs => rfl
  | mat a => rfl
  | imat c rs =>
    show some (KVar.two (asRealArr c _)) = some (KVar.two ⟨c, selectRows (rs.map asReals) rows⟩)
    exact congrArg (fun r => some (KVar.two ⟨c, r⟩)) (selectRows_map_lt asReals rs rows hr).symm
  | intTup _ => rfl
  | tup _ => rfl

theorem size_toKVar {x : PyData} {u : KVar} (h : x.toKVar = some u) : x.size = u.len := by
  cases x <;> cases h <;> simp [PyData.size, KVar.len, asReals, asRealArr]

theorem KVar.sel_sel (v : KVar) (a b : List Nat) (hb : ∀ i ∈ b, i < a.length) : (v.sel a).sel b = v.sel (selectRows a b) := by
  cases v <;> simp only [KVar.sel, selectRows_selectRows _ _ _ hb]

theorem KVar.len_sel (v : KVar) (a : List Nat) : (v.sel a).len = a.length := by
  cases v <;> simp [KVar.sel, KVar.len, selectRows_length]

end Verif
