import Verif.Lemmas.EndToEndIdent
import Verif.Spec.EndToEndSym

/-!
# Lemmas: rearranged tables have the same counts
-/

namespace Verif

open Spec

/-- what the estimators see of a table: the counts of each variable (in any order) and of the joint observations -/
structure SameInfo (N : Nat) (cols cols' : List (List Int)) : Prop where
  lens : ∀ c ∈ cols', c.length = N
  num : cols'.length = cols.length
  sum : ∀ φ : List Int → ℝ, (∀ xs ys, xs.length = N → SameCounts xs ys → φ xs = φ ys) → (cols.map φ).sum = (cols'.map φ).sum
  all : ∀ P : List Int → Prop, (∀ xs ys, xs.length = N → SameCounts xs ys → (P xs ↔ P ys)) →
    ((∀ c ∈ cols, P c) ↔ ∀ c ∈ cols', P c)
  joint : SameCounts (rows N cols) (rows N cols')

theorem sym_inOrder_same {N : Nat} {σ : List Nat} (hσ : σ.Perm (List.range N)) {v : List Int} (hv : v.length = N) :
    SameCounts v (inOrder σ v) := by
  conv => arg 1; rw [bias_map_getD_range v hv]
  exact sameCounts_perm (hσ.symm.map (fun t => v.getD t default))

theorem sym_rows_inOrder {N : Nat} {σ : List Nat} (hσ : σ.Perm (List.range N)) (cols : List (List Int)) :
    rows N (cols.map (inOrder σ)) = σ.map (row cols) := by
  have hlen : σ.length = N := by rw [hσ.length_eq, List.length_range]
  refine List.ext_getElem (by simp [rows, hlen]) fun i hi _ => ?_
  have hi' : i < σ.length := by simpa [rows, hlen] using hi
  simp only [rows, List.getElem_map, List.getElem_range, row, List.map_map]
  refine List.map_congr_left fun v _ => ?_
  simp only [Function.comp]
  rw [List.getD_eq_getElem?_getD, inOrder, List.getElem?_map, List.getElem?_eq_getElem hi']
  rfl

theorem sym_forall2_sum {cols cols' : List (List Int)} {N : Nat} (hr : List.Forall₂ Relabelled cols cols') (hl : ∀ v ∈ cols, v.length = N) :
    (∀ c ∈ cols', c.length = N) ∧
    (∀ φ : List Int → ℝ, (∀ xs ys, xs.length = N → SameCounts xs ys → φ xs = φ ys) → (cols.map φ).sum = (cols'.map φ).sum) ∧
    (∀ P : List Int → Prop, (∀ xs ys, xs.length = N → SameCounts xs ys → (P xs ↔ P ys)) → ((∀ c ∈ cols, P c) ↔ ∀ c ∈ cols', P c)) ∧
    (∀ s < N, ∀ t < N, (row cols s = row cols t ↔ row cols' s = row cols' t)) := by
  induction hr with
  | nil => exact ⟨by simp, fun _ _ => rfl, fun _ _ => by simp, fun _ _ _ _ => Iff.rfl⟩
  | @cons v w l l' hvw _ ih =>
    obtain ⟨i0, i1, i2, i3⟩ := ih (fun v hv => hl v (by simp [hv]))
    have hv := hl _ (List.mem_cons_self ..)
    have hs : SameCounts v w := (renamed_same hvw).symm
    refine ⟨?_, fun φ h => ?_, fun P h => ?_, fun s hs t ht => ?_⟩
    · intro c hc
      rcases List.mem_cons.1 hc with rfl | hc
      · rw [renamed_length hvw, hv]
      · exact i0 c hc
    · simp only [List.map_cons, List.sum_cons, i1 φ h, h _ _ hv hs]
    · simp only [List.mem_cons, forall_eq_or_imp, i2 P h, h _ _ hv hs]
    · have i3 := i3 s hs t ht
      simp only [row, List.map_cons, List.cons.injEq] at i3 ⊢
      rw [renamed_getD hvw hv hs ht, i3]

theorem sym_info {N : Nat} {cols cols' : List (List Int)} (h : Rearranged N cols cols') (hl : ∀ c ∈ cols, c.length = N) :
    SameInfo N cols cols' := by
  induction h with
  | order hp =>
    refine ⟨fun c hc => hl c (hp.mem_iff.2 hc), hp.length_eq.symm, fun φ _ => (hp.map φ).sum_eq,
      fun P _ => forall_congr' fun c => by rw [hp.mem_iff], ?_⟩
    refine sameCounts_map _ _ _ fun s _ t _ => ?_
    rw [row_mem_iff, row_mem_iff]
    exact forall_congr' fun v => by rw [hp.mem_iff]
  | @samples cols σ hσ =>
    have hlen : σ.length = N := by rw [hσ.length_eq, List.length_range]
    refine ⟨fun c hc => ?_, by simp, fun φ hφ => ?_, fun P hP => ?_, ?_⟩
    · obtain ⟨v, _, rfl⟩ := List.mem_map.1 hc
      simpa [inOrder] using hlen
    · rw [List.map_map]
      congr 1
      exact List.map_congr_left fun v hv => hφ _ _ (hl v hv) (sym_inOrder_same hσ (hl v hv))
    · simp only [List.mem_map, forall_exists_index, and_imp, forall_apply_eq_imp_iff₂]
      exact forall₂_congr fun v hv => hP _ _ (hl v hv) (sym_inOrder_same hσ (hl v hv))
    · rw [sym_rows_inOrder hσ]
      exact sameCounts_perm (hσ.symm.map (row cols))
  | rename hr =>
    obtain ⟨i0, i1, i2, i3⟩ := sym_forall2_sum hr hl
    exact ⟨i0, hr.length_eq.symm, i1, i2, sameCounts_map _ _ _ fun s hs t ht => i3 s (List.mem_range.1 hs) t (List.mem_range.1 ht)⟩
  | trans _ _ ih1 ih2 =>
    have h1 := ih1 hl
    have h2 := ih2 h1.lens
    exact ⟨h2.lens, h2.num.trans h1.num, fun φ hφ => (h1.sum φ hφ).trans (h2.sum φ hφ), fun P hP => (h1.all P hP).trans (h2.all P hP),
      h1.joint.trans h2.joint⟩

/-- the same with a condition -/
structure SameInfoCond (N : Nat) (cols : List (List Int)) (z : List Int) (cols' : List (List Int)) (z' : List Int) : Prop where
  info : SameInfo N cols cols'
  zlen : z'.length = N
  zsame : SameCounts z z'
  sum : ∀ φ : List (Int × Int) → ℝ, (∀ xs ys, xs.length = N → SameCounts xs ys → φ xs = φ ys) →
    (cols.map (fun v => φ (v.zip z))).sum = (cols'.map (fun v => φ (v.zip z'))).sum
  all : ∀ P : List (Int × Int) → Prop, (∀ xs ys, xs.length = N → SameCounts xs ys → (P xs ↔ P ys)) →
    ((∀ v ∈ cols, P (v.zip z)) ↔ ∀ v ∈ cols', P (v.zip z'))
  joint : SameCounts ((rows N cols).zip z) ((rows N cols').zip z')

theorem sym_zip_inOrder {N : Nat} {σ : List Nat} (hσ : σ.Perm (List.range N)) {v z : List Int} (hv : v.length = N) (hz : z.length = N) :
    SameCounts (v.zip z) ((inOrder σ v).zip (inOrder σ z)) := by
  rw [zip_getD v z hv hz, inOrder, inOrder, List.zip_map']
  exact sameCounts_perm (hσ.symm.map (fun t => (v.getD t default, z.getD t default)))

theorem sym_zip_renamed {N : Nat} {v w z z' : List Int} (hvw : Relabelled v w) (hzz : Relabelled z z') (hv : v.length = N) (hz : z.length = N) :
    SameCounts (v.zip z) (w.zip z') := by
  rw [zip_getD v z hv hz, zip_getD w z' ((renamed_length hvw).trans hv) ((renamed_length hzz).trans hz)]
  refine sameCounts_map _ _ _ fun s hs t ht => ?_
  rw [Prod.mk.injEq, Prod.mk.injEq, renamed_getD hvw hv (List.mem_range.1 hs) (List.mem_range.1 ht),
    renamed_getD hzz hz (List.mem_range.1 hs) (List.mem_range.1 ht)]

theorem sym_zip_length {N : Nat} {v z : List Int} (hv : v.length = N) (hz : z.length = N) : (v.zip z).length = N := by simp [hv, hz]

theorem sym_info_cond {N : Nat} {cols cols' : List (List Int)} {z z' : List Int} (h : RearrangedCond N cols z cols' z')
    (hl : ∀ c ∈ cols, c.length = N) (hz : z.length = N) : SameInfoCond N cols z cols' z' := by
  induction h with
  | order hp =>
    refine ⟨sym_info (.order hp) hl, hz, sameCounts_perm (.refl _), fun φ _ => (hp.map _).sum_eq,
      fun P _ => forall_congr' fun c => by rw [hp.mem_iff], ?_⟩
    rw [rows_zip_getD _ _ hz, rows_zip_getD _ _ hz]
    refine sameCounts_map _ _ _ fun s _ t _ => ?_
    rw [Prod.mk.injEq, Prod.mk.injEq, row_mem_iff, row_mem_iff]
    exact and_congr (forall_congr' fun v => by rw [hp.mem_iff]) Iff.rfl
  | @samples cols z σ hσ =>
    have hlen : σ.length = N := by rw [hσ.length_eq, List.length_range]
    refine ⟨sym_info (.samples σ hσ) hl, by simpa [inOrder] using hlen, sym_inOrder_same hσ hz, fun φ hφ => ?_, fun P hP => ?_, ?_⟩
    · rw [List.map_map]
      congr 1
      exact List.map_congr_left fun v hv => hφ _ _ (sym_zip_length (hl v hv) hz) (sym_zip_inOrder hσ (hl v hv) hz)
    · simp only [List.mem_map, forall_exists_index, and_imp, forall_apply_eq_imp_iff₂]
      exact forall₂_congr fun v hv => hP _ _ (sym_zip_length (hl v hv) hz) (sym_zip_inOrder hσ (hl v hv) hz)
    · rw [sym_rows_inOrder hσ, rows_zip_getD _ _ hz, inOrder, List.zip_map']
      exact sameCounts_perm (hσ.symm.map (fun t => (row cols t, z.getD t default)))
  | @rename cols cols' z z' hr hzz =>
    have I := sym_info (.rename hr) hl
    refine ⟨I, (renamed_length hzz).trans hz, (renamed_same hzz).symm, ?_, ?_, ?_⟩
    · intro φ hφ
      clear I
      induction hr with
      | nil => rfl
      | cons hvw _ ih =>
        have hv := hl _ (List.mem_cons_self ..)
        simp only [List.map_cons, List.sum_cons, ih (fun v hv => hl v (by simp [hv])),
          hφ _ _ (sym_zip_length hv hz) (sym_zip_renamed hvw hzz hv hz)]
    · intro P hP
      clear I
      induction hr with
      | nil => simp
      | cons hvw _ ih =>
        have hv := hl _ (List.mem_cons_self ..)
        simp only [List.mem_cons, forall_eq_or_imp, ih (fun v hv => hl v (by simp [hv])),
          hP _ _ (sym_zip_length hv hz) (sym_zip_renamed hvw hzz hv hz)]
    · rw [rows_zip_getD _ _ hz, rows_zip_getD _ _ ((renamed_length hzz).trans hz)]
      refine sameCounts_map _ _ _ fun s hs t ht => ?_
      rw [Prod.mk.injEq, Prod.mk.injEq, renamed_getD hzz hz (List.mem_range.1 hs) (List.mem_range.1 ht),
        (sym_forall2_sum hr hl).2.2.2 s (List.mem_range.1 hs) t (List.mem_range.1 ht)]
  | trans _ _ ih1 ih2 =>
    have h1 := ih1 hl hz
    have h2 := ih2 h1.info.lens h1.zlen
    exact ⟨⟨h2.info.lens, h2.info.num.trans h1.info.num, fun φ hφ => (h1.info.sum φ hφ).trans (h2.info.sum φ hφ),
        fun P hP => (h1.info.all P hP).trans (h2.info.all P hP), h1.info.joint.trans h2.info.joint⟩,
      h2.zlen, h1.zsame.trans h2.zsame, fun φ hφ => (h1.sum φ hφ).trans (h2.sum φ hφ),
      fun P hP => (h1.all P hP).trans (h2.all P hP), h1.joint.trans h2.joint⟩

theorem sym_const {xs ys : List Int} (h : SameCounts xs ys) : IsConst xs ↔ IsConst ys := by
  have key : ∀ l : List Int, IsConst l ↔ l.toFinset.card ≤ 1 := by
    intro l
    rw [Finset.card_le_one]
    simp [IsConst]
  rw [key, key, h.card]

theorem sym_special {N : Nat} {cols cols' : List (List Int)} (I : SameInfo N cols cols') :
    (∃ c ∈ cols, IsConst c) ↔ ∃ c ∈ cols', IsConst c := by
  have := I.all (fun c => ¬ IsConst c) (fun xs ys _ h => not_congr (sym_const h))
  constructor
  · intro ⟨c, hc, h⟩
    by_contra hn
    exact this.2 (fun c hc h => hn ⟨c, hc, h⟩) c hc h
  · intro ⟨c, hc, h⟩
    by_contra hn
    exact this.1 (fun c hc h => hn ⟨c, hc, h⟩) c hc h

theorem sym_rows_ne {N : Nat} (hN : 0 < N) (cols : List (List Int)) : rows N cols ≠ [] := by
  intro h
  have := congrArg List.length h
  simp [rows] at this
  omega

end Verif
