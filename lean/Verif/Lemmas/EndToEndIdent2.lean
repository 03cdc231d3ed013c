import Verif.Lemmas.EndToEndIdent
import Verif.Spec.EndToEndIdent
import Verif.Props.EndToEnd3

/-!
# Lemmas: embedded columns as tuples
-/

namespace Verif

open Spec

theorem idn_getD_lag (xs : List Int) (n m s j i : Nat) (hi : i < numRows n m s) :
    (lagCol xs n m s j).getD i default = xs.getD ((m + i - j) * s) default := by
  rw [lagCol, List.getD_eq_getElem?_getD]
  simp [hi]

theorem idn_hist_iff (xs : List Int) (n m s h u v : Nat) (hu : u < numRows n m s) (hv : v < numRows n m s) (hm : h ≤ m) :
    (∀ c ∈ histCols xs n m s h, c.getD u default = c.getD v default) ↔ histRow xs m s h u = histRow xs m s h v := by
  unfold histCols histRow
  simp only [List.mem_map, List.mem_range, forall_exists_index, and_imp, forall_apply_eq_imp_iff₂, List.map_inj_left]
  refine forall_congr' fun j => imp_congr_right fun hj => ?_
  rw [idn_getD_lag xs n m s _ u hu, idn_getD_lag xs n m s _ v hv, show m + u - (h - j) = m + u - h + j by omega,
    show m + v - (h - j) = m + v - h + j by omega]

theorem idn_hist_len (xs : List Int) (n m s h : Nat) : ∀ c ∈ histCols xs n m s h, c.length = numRows n m s := by
  intro c hc
  obtain ⟨j, _, rfl⟩ := List.mem_map.1 hc
  simp [lagCol]

theorem idn_hist_ne (xs : List Int) (n m s h : Nat) (hh : 0 < h) : histCols xs n m s h ≠ [] := by
  intro e
  have := congrArg List.length e
  simp [histCols] at this
  omega

theorem idn_rows_same {γ : Type} [DecidableEq γ] {cols : List (List Int)} {R : Nat} (g : Nat → γ)
    (h : ∀ u < R, ∀ v < R, ((∀ c ∈ cols, c.getD u default = c.getD v default) ↔ g u = g v)) :
    SameCounts (jointCodes R cols) ((List.range R).map g) := by
  refine (jointCodes_same R cols).trans (sameCounts_map _ _ _ fun u hu v hv => ?_)
  rw [row_mem_iff]
  exact h u (List.mem_range.1 hu) v (List.mem_range.1 hv)

/-- columns that carry the same information as the row function -/
def CarriesRow {γ : Type} (cols : List (List Int)) (R : Nat) (g : Nat → γ) : Prop :=
  ∀ u < R, ∀ v < R, ((∀ c ∈ cols, c.getD u default = c.getD v default) ↔ g u = g v)

theorem carries_append {γ δ : Type} {A B : List (List Int)} {R : Nat} {g : Nat → γ} {h : Nat → δ} (ha : CarriesRow A R g)
    (hb : CarriesRow B R h) : CarriesRow (A ++ B) R (fun i => (g i, h i)) := by
  intro u hu v hv
  rw [Prod.mk.injEq, ← ha u hu v hv, ← hb u hu v hv]
  simp only [List.mem_append]
  exact ⟨fun e => ⟨fun c hc => e c (.inl hc), fun c hc => e c (.inr hc)⟩, fun e c hc => hc.elim (e.1 c) (e.2 c)⟩

theorem carries_hist (xs : List Int) (n m s h : Nat) (hm : h ≤ m) : CarriesRow (histCols xs n m s h) (numRows n m s) (histRow xs m s h) :=
  fun u hu v hv => idn_hist_iff xs n m s h u v hu hv hm

theorem carries_fut (xs : List Int) (n m s : Nat) :
    CarriesRow [lagCol xs n m s 0] (numRows n m s) (fun i => [xs.getD ((m + i) * s) default]) := by
  intro u hu v hv
  simp only [List.mem_singleton, forall_eq, idn_getD_lag xs n m s 0 u hu, idn_getD_lag xs n m s 0 v hv, Nat.sub_zero,
    List.cons.injEq, and_true]

/-- the four tuples of a transfer entropy -/
structure TeSame {δ : Type} [DecidableEq δ] (R : Nat) (F : List Int) (G D : List (List Int)) (f g : List (List Int)) (d : List δ) : Prop where
  fd : SameCounts (jointCodes R (F :: D)) (f.zip d)
  gd : SameCounts (jointCodes R (G ++ D)) (g.zip d)
  fgd : SameCounts (jointCodes R (F :: (G ++ D))) (f.zip (g.zip d))
  d : SameCounts (jointCodes R D) d
  lF : F.length = R
  lG : ∀ c ∈ G, c.length = R
  lD : ∀ c ∈ D, c.length = R
  ne : D ≠ []

theorem teSame_te (source dest : List Int) (l k s n : Nat) (hk : 0 < k) :
    TeSame (numRows n (max k l) s) (lagCol dest n (max k l) s 0) (histCols source n (max k l) s l) (histCols dest n (max k l) s k)
      (futRows dest n (max k l) s) (histRows source n (max k l) s l) (histRows dest n (max k l) s k) := by
  have cf := carries_fut dest n (max k l) s
  have cg := carries_hist source n (max k l) s l (le_max_right _ _)
  have cd := carries_hist dest n (max k l) s k (le_max_left _ _)
  constructor
  · simp only [futRows, histRows, zip_map_map]
    exact idn_rows_same _ (carries_append cf cd)
  · simp only [histRows, zip_map_map]
    exact idn_rows_same _ (carries_append cg cd)
  · simp only [futRows, histRows, zip_map_map]
    exact idn_rows_same _ (carries_append cf (carries_append cg cd))
  · exact idn_rows_same _ cd
  · simp [lagCol]
  · exact idn_hist_len _ _ _ _ _
  · exact idn_hist_len _ _ _ _ _
  · exact idn_hist_ne _ _ _ _ _ hk

theorem teSame_cte (source dest z : List Int) (l k c s n : Nat) (hk : 0 < k) :
    TeSame (numRows n (max (max k l) c) s) (lagCol dest n (max (max k l) c) s 0) (histCols source n (max (max k l) c) s l)
      (histCols dest n (max (max k l) c) s k ++ histCols z n (max (max k l) c) s c)
      (futRows dest n (max (max k l) c) s) (histRows source n (max (max k l) c) s l)
      ((histRows dest n (max (max k l) c) s k).zip (histRows z n (max (max k l) c) s c)) := by
  have cf := carries_fut dest n (max (max k l) c) s
  have cg := carries_hist source n (max (max k l) c) s l (by omega)
  have cd := carries_append (carries_hist dest n (max (max k l) c) s k (by omega)) (carries_hist z n (max (max k l) c) s c (by omega))
  constructor
  · simp only [futRows, histRows, zip_map_map]
    exact idn_rows_same _ (carries_append cf cd)
  · simp only [histRows, zip_map_map]
    exact idn_rows_same _ (carries_append cg cd)
  · simp only [futRows, histRows, zip_map_map]
    exact idn_rows_same _ (carries_append cf (carries_append cg cd))
  · simp only [histRows, zip_map_map]
    exact idn_rows_same _ cd
  · simp [lagCol]
  · exact idn_hist_len _ _ _ _ _
  · intro x hx
    rcases List.mem_append.1 hx with h | h
    · exact idn_hist_len _ _ _ _ _ x h
    · exact idn_hist_len _ _ _ _ _ x h
  · intro e
    exact idn_hist_ne _ _ _ _ _ hk (List.append_eq_nil_iff.1 e).1

variable {W : World} {a : PyName} {kw : Kw}

theorem pubH_te {D0 : List Int → Prop} {V : List Int → ℝ} (P : PubH W a kw D0 V) {δ : Type} [DecidableEq δ] {R : Nat} {F : List Int}
    {G D f g : List (List Int)} {d : List δ} (T : TeSame R F G D f g d) (hR : 0 < R)
    (d1 : D0 (jointCodes R (F :: D))) (d2 : D0 (jointCodes R (G ++ D))) (d3 : D0 (jointCodes R (F :: (G ++ D)))) (d4 : D0 (jointCodes R D))
    {v : ℝ} (hv : v = V (jointCodes R (F :: D)) + V (jointCodes R (G ++ D)) - V (jointCodes R (F :: (G ++ D))) - V (jointCodes R D)) :
    TeCombination W a kw F G D v := by
  have lGD : ∀ c ∈ G ++ D, c.length = R := fun c hc => (List.mem_append.1 hc).elim (T.lG c) (T.lD c)
  have lc : ∀ {A : List (List Int)}, (∀ c ∈ A, c.length = R) → ∀ c ∈ F :: A, c.length = R := by
    intro A hA c hc
    rcases List.mem_cons.1 hc with rfl | h
    · exact T.lF
    · exact hA c h
  refine ⟨_, _, _, _, ?_, ?_, ?_, ?_, hv⟩
  · rw [P.tup _ R hR (by simp) (lc T.lD)]; exact (P.seq _ (jointCodes_ne hR _)).1 d1
  · rw [P.tup _ R hR (by simp [T.ne]) lGD]; exact (P.seq _ (jointCodes_ne hR _)).1 d2
  · rw [P.tup _ R hR (by simp) (lc lGD)]; exact (P.seq _ (jointCodes_ne hR _)).1 d3
  · rw [P.tup _ R hR T.ne T.lD]; exact (P.seq _ (jointCodes_ne hR _)).1 d4

theorem idn_rows_pos {n m s : Nat} (hs : 0 < s) (h : m * s < n) : 0 < numRows n m s := by
  unfold numRows
  exact Nat.div_pos (by omega) hs

end Verif
