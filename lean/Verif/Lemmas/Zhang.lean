import Verif.Lemmas.Bias5

/-! # Zhang's inner sum is a difference of harmonic numbers -/

namespace Verif

open Spec

/-- the product in Zhang's formula with `N − 1 = M`, `n − 1 = d` -/
noncomputable def zProd (d M : ℝ) (v : Nat) : ℝ := ∏ j ∈ Finset.range v, (1 - d / (M - j))

theorem zProd_step (d e : Nat) (v : Nat) (hv : v ≤ e) :
    zProd d (d + e + 1) v * ((d + e + 1) * ((e : ℝ) + 1 - v)) =
      zProd d (d + e) v * (((e : ℝ) + 1) * (d + e + 1 - v)) := by
  induction v with
  | zero => simp [zProd]; ring
  | succ v ih =>
    have ih := ih (by omega)
    have h1 : ((d : ℝ) + e + 1 - v) ≠ 0 := by
      have : (v : ℝ) < e := by exact_mod_cast hv
      have : (0:ℝ) ≤ d := Nat.cast_nonneg d
      linarith
    have h2 : ((d : ℝ) + e - v) ≠ 0 := by
      have : (v : ℝ) < e := by exact_mod_cast hv
      have : (0:ℝ) ≤ d := Nat.cast_nonneg d
      linarith
    have e1 : zProd d (d + e + 1) (v + 1) = zProd d (d + e + 1) v * (1 - d / (d + e + 1 - v)) := by
      simp [zProd, Finset.prod_range_succ]
    have e2 : zProd d (d + e) (v + 1) = zProd d (d + e) v * (1 - d / (d + e - v)) := by
      simp [zProd, Finset.prod_range_succ]
    rw [e1, e2]
    push_cast
    have e3 : zProd d (d + e + 1) v * (1 - d / (d + e + 1 - v)) * ((d + e + 1) * ((e : ℝ) + 1 - (v + 1))) =
        zProd d (d + e + 1) v * ((d + e + 1) * ((e : ℝ) + 1 - v)) * ((e - v) / (d + e + 1 - v)) := by
      field_simp; ring
    rw [e3, ih]
    field_simp
    ring

theorem zSum (d e : Nat) :
    ∑ v ∈ Finset.Icc 1 e, 1 / (v : ℝ) * zProd d (d + e) v =
      ∑ k ∈ Finset.Ico (d + 1) (d + e + 1), 1 / (k : ℝ) := by
  induction e with
  | zero => simp
  | succ e ih =>
    have hd : (0:ℝ) ≤ d := Nat.cast_nonneg d
    have he : (0:ℝ) ≤ e := Nat.cast_nonneg e
    rw [← add_assoc, Finset.sum_Ico_succ_top (by omega), ← ih, Finset.sum_Icc_succ_top (by omega)]
    push_cast
    rw [← add_assoc]
    have hterm : ∀ v ∈ Finset.Icc 1 e, 1 / (v : ℝ) * zProd d (d + e + 1) v =
        1 / (v : ℝ) * zProd d (d + e) v +
          (zProd d (d + e + 1) v - zProd d (d + e + 1) (v + 1)) / ((e : ℝ) + 1) := by
      intro v hv
      obtain ⟨hv1, hv2⟩ := Finset.mem_Icc.1 hv
      have h1 : (1:ℝ) ≤ v := by exact_mod_cast hv1
      have h2 : (v:ℝ) ≤ e := by exact_mod_cast hv2
      have hs := zProd_step d e v hv2
      have h3 : ((d : ℝ) + e + 1 - v) ≠ 0 := by linarith
      have h4 : ((e : ℝ) + 1) ≠ 0 := by linarith
      have h5 : (v : ℝ) ≠ 0 := by linarith
      have e1 : zProd d (d + e + 1) (v + 1) = zProd d (d + e + 1) v * (1 - d / (d + e + 1 - v)) := by
        simp [zProd, Finset.prod_range_succ]
      have e2 : zProd d (d + e) v = zProd d (d + e + 1) v * ((d + e + 1) * ((e : ℝ) + 1 - v)) /
          (((e : ℝ) + 1) * (d + e + 1 - v)) := by
        rw [hs]; field_simp
      rw [e1, e2]
      field_simp
      ring
    rw [Finset.sum_congr rfl hterm, Finset.sum_add_distrib, add_assoc]
    congr 1
    rw [← Finset.sum_div]
    have htel : ∑ v ∈ Finset.Icc 1 e, (zProd d (d + e + 1) v - zProd d (d + e + 1) (v + 1)) =
        zProd d (d + e + 1) 1 - zProd d (d + e + 1) (e + 1) := by
      clear ih hterm
      generalize (d : ℝ) + e + 1 = M
      induction e with
      | zero => simp
      | succ e ih => rw [Finset.sum_Icc_succ_top (by omega), ih (by positivity)]; ring
    have h4 : ((e : ℝ) + 1) ≠ 0 := by linarith
    have h6 : ((d : ℝ) + e + 1) ≠ 0 := by linarith
    rw [htel]
    have h7 : zProd d (d + e + 1) 1 = ((e : ℝ) + 1) / (d + e + 1) := by
      simp [zProd]; field_simp; ring
    rw [h7]
    field_simp
    ring

theorem zhangInner_eq (N n : Nat) (hn : 0 < n) (h : n ≤ N) :
    zhangInner N n = ∑ k ∈ Finset.Ico n N, 1 / (k : ℝ) := by
  obtain ⟨d, rfl⟩ : ∃ d, n = d + 1 := ⟨n - 1, by omega⟩
  obtain ⟨e, rfl⟩ := Nat.exists_eq_add_of_le h
  have := zSum d e
  rw [show d + 1 + e = d + e + 1 by omega, ← this]
  unfold zhangInner zProd
  rw [show d + e + 1 - (d + 1) = e by omega]
  refine Finset.sum_congr rfl fun v _ => ?_
  congr 1
  refine Finset.prod_congr rfl fun j _ => ?_
  push_cast
  rw [show (1 - ((d:ℝ) + 1)) = -d by ring, show ((d:ℝ) + e + 1 - 1 - j) = d + e - j by ring]
  ring

end Verif
