import Verif.Lemmas.TE
import Verif.Props.Bias

/-! # Lemmas: transfer entropy as an entropy combination -/

namespace Verif

open Spec

/-! ### Rows of fixed width -/

theorem append_eq_iff {α : Type} {a b c d : List α} (h : a.length = c.length) :
    a ++ b = c ++ d ↔ a = c ∧ b = d :=
  ⟨fun e => List.append_inj e h, fun ⟨e1, e2⟩ => by rw [e1, e2]⟩

/-- entropies of row-wise concatenations of columns of fixed width -/
theorem cmi_rows (R : Nat) (f g z : Nat → List Int) :
    Spec.cmi ((List.range R).map f) ((List.range R).map g) ((List.range R).map z) =
      entropy ((List.range R).map (fun i => (f i, z i))) +
      entropy ((List.range R).map (fun i => (g i, z i))) -
      entropy ((List.range R).map (fun i => (f i, g i, z i))) -
      entropy ((List.range R).map z) := by
  rw [cmi_eq_entropies _ _ _ (by simp) (by simp)]
  simp only [zip_map_map]

theorem hConstruct_arr2 {rows : List (List Int)} (h : rows ≠ []) :
    hConstruct (.arr2 rows) = .ok (mkData ((npInverse rows).map Int.ofNat)) := by
  have hne : (npInverse rows).map Int.ofNat ≠ [] := by
    intro e
    have := congrArg List.length e
    simp only [List.length_map, npInverse_length, List.length_nil] at this
    exact h (List.length_eq_zero_iff.1 this)
  simp only [hConstruct, discreteHInit, entropyInit, bind, Except.bind, List.mapM_cons, List.mapM_nil,
    reduceVar, reduceJointSpace, fromData_ok hne, pure, Except.pure]

theorem discreteEntropy_arr2 {rows : List (List Int)} (h : rows ≠ []) {b : Base} (hb : b.Valid) :
    discreteEntropy [.arr2 rows] b = .ok (entropy rows / b.ln) := by
  have hne : (npInverse rows).map Int.ofNat ≠ [] := by
    intro e
    have := congrArg List.length e
    simp only [List.length_map, npInverse_length, List.length_nil] at this
    exact h (List.length_eq_zero_iff.1 this)
  simp only [discreteEntropy, discreteHInit, entropyInit, bind, Except.bind, List.mapM_cons, List.mapM_nil,
    reduceVar, reduceJointSpace, fromData_ok hne, pure, Except.pure, entropyDispatch, discreteSimple_ok hb,
    entropy_inverse]


/-- value of the two-variable conditional estimator, plain (`mm = false`) and Miller–Madow -/
theorem cmiNdInt_pair_mm {α γ : Type} [LinearOrder α] [LinearOrder γ] [Inhabited α] [Inhabited γ]
    (xs ys : List α) (z : List γ) (h1 : xs.length = ys.length) (h2 : ys.length = z.length)
    (hne : xs ≠ []) (hov : xs.length ^ 2 < 2 ^ 64) {b : Base} (hb : b.Valid) :
    cmiNdInt (logBase b) [xs, ys] z (some b) =
      .ok ((Spec.cmi xs ys z + (((xs.zip z).toFinset.card : ℝ) + (ys.zip z).toFinset.card
        - (xs.zip (ys.zip z)).toFinset.card - z.toFinset.card) / (2 * xs.length)) / b.ln) := by
  have hN := List.length_pos_iff.2 hne
  have hzne : z ≠ [] := List.length_pos_iff.1 (by omega)
  have hyne : ys ≠ [] := List.length_pos_iff.1 (by omega)
  by_cases hc : ∃ c ∈ [xs, ys], (npUnique c).length * (npUnique z).length = 1
  · obtain ⟨c, hcm, hc⟩ := hc
    rw [cmiNdInt_const hcm hc]
    obtain ⟨hcc, hzc⟩ := const_of_mul_one hc
    have hzx : (xs.zip z).toFinset.card = xs.toFinset.card := by
      rw [card_zip_comm, card_zip_const z _ (by omega) hzc]
    have hzy : (ys.zip z).toFinset.card = ys.toFinset.card := by
      rw [card_zip_comm, card_zip_const z _ (by omega) hzc]
    have hyz : (ys.zip z).length = ys.length := by simp; omega
    rcases List.mem_cons.1 hcm with rfl | h'
    · rw [cmi_const_left _ _ _ h1 h2 hcc, card_zip_const c (ys.zip z) (by omega) hcc, hzy, hzx,
        card_const hzne hzc, card_const hne hcc]
      simp
    · rw [List.mem_singleton.1 h'] at hcc
      have hk : (xs.zip (ys.zip z)).toFinset.card = xs.toFinset.card := by
        rw [card_zip_comm, card_zip_const (ys.zip z) xs (by omega)]
        rintro ⟨a, a'⟩ ha ⟨d, d'⟩ hd
        exact Prod.ext (hcc _ (List.of_mem_zip ha).1 _ (List.of_mem_zip hd).1)
          (hzc _ (List.of_mem_zip ha).2 _ (List.of_mem_zip hd).2)
      rw [cmi_comm xs ys z h1 h2, cmi_const_left _ _ _ h1.symm (by omega) hcc, hk, hzx, hzy,
        card_const hzne hzc, card_const hyne hcc]
      simp
  · push Not at hc
    have hcard : ((Spec.rows xs.length [xs, ys]).zip z).toFinset.card =
        (xs.zip (ys.zip z)).toFinset.card := by
      rw [rows_zip_range _ _ _ (by omega)]
      have e : xs.zip (ys.zip z) = (List.range xs.length).map
          (fun t => (xs.getD t default, ys.getD t default, z.getD t default)) := by
        conv_lhs => rw [← col_map_range xs xs.length rfl, zip_range ys z xs.length h1.symm (by omega)]
        rw [zip_map_map]
      rw [e]
      refine card_map_congr _ _ _ fun u _ v _ => ?_
      simp [Spec.row, Prod.ext_iff, and_assoc]
    have ha := addCorr_some hb [(xs.zip z).toFinset.card, (ys.zip z).toFinset.card]
      ((Spec.rows xs.length [xs, ys]).zip z).toFinset.card xs.length (some (npUnique z).length)
      (Spec.cmi xs ys z / b.ln) hN.ne'
    simp only [if_true] at ha
    rw [cmiNdInt_ok [xs, ys] z xs.length hN (by simp) (by simp [h1])
      (by omega) hc (by simpa using hov) hov hb, condInter_pair xs ys z h1 h2]
    refine ha.trans ?_
    rw [hcard]
    simp only [List.sum_cons, List.sum_nil, List.length_cons, List.length_nil, npUnique_length]
    congr 1
    have hln := hb.ln_ne
    have hN' := length_pos_real hne
    push_cast
    field_simp
    ring

end Verif
