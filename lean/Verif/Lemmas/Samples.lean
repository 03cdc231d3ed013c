import Verif.Spec.Knn

/-! # Small concrete samples, used to show that hypotheses about neighbour distances can be met -/

namespace Verif

open Spec

/-- With two points the nearest other point is the other point. -/
theorem two_isKth (δ : Nat → ℝ) {t : Nat} (ht : t < 2) : IsKthDist 2 1 t δ (δ (1 - t)) := by
  refine ⟨⟨1 - t, by omega, by omega, rfl⟩, ?_, ?_⟩
  · interval_cases t <;> simp [below, List.range_succ]
  · interval_cases t <;> simp [within, List.range_succ]

/-- The distance between two points of the line, in the Euclidean norm. -/
theorem line_distance (a b : ℝ) : distance (some 2) [a] [b] = |a - b| := by
  simp [distance]
  rw [← one_div, ← Real.sqrt_eq_rpow, Real.sqrt_sq_eq_abs]

/-- The distance between two points of the line, in the maximum norm. -/
theorem maxline_distance (a b : ℝ) : distance none [a] [b] = |a - b| := by simp [distance]

/-- The distance between two points of the plane, in the Euclidean norm. -/
theorem plane_distance (a b c d : ℝ) : distance (some 2) [a, b] [c, d] = Real.sqrt ((a - c) ^ 2 + (b - d) ^ 2) := by
  show (∑ i : Fin 2, |[a, b].getD i 0 - [c, d].getD i 0| ^ (2:ℝ)) ^ (1 / (2:ℝ)) = _
  rw [Fin.sum_univ_two, ← Real.sqrt_eq_rpow]
  simp

/-- any neighbour distance of a sample of two points is the distance to the other point -/
theorem two_kth {δ : Nat → ℝ} {t : Nat} (ht : t < 2) {ε : ℝ} (h : IsKthDist 2 1 t δ ε) : ε = δ (1 - t) := by
  obtain ⟨⟨s, hs, hne, e⟩, _⟩ := h
  have : s = 1 - t := by omega
  rw [← e, this]

end Verif
