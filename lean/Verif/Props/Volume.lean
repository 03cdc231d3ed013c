import Verif.Model.Knn
import Verif.Spec.Knn

/-!
# C50: volume of Minkowski balls

`unitBallVolume d r p` is `unit_ball_volume(d, r, p)`.
-/

namespace Verif

open Spec MeasureTheory

/-- The general formula of the last branch of `unit_ball_volume`. -/
noncomputable def lpVolume (d : Nat) (p r : ℝ) : ℝ :=
  (2 * r) ^ d * Real.Gamma (1 + 1 / p) ^ d / Real.Gamma (1 + d / p)

theorem gamma_three_half : Real.Gamma (1 + 1 / 2) = Real.sqrt Real.pi / 2 := by
  rw [show (1 : ℝ) + 1 / 2 = 1 / 2 + 1 by norm_num, Real.Gamma_add_one (by norm_num), Real.Gamma_one_half_eq]
  ring

theorem gamma_five_half : Real.Gamma (1 + 3 / 2) = 3 * Real.sqrt Real.pi / 4 := by
  rw [show (1 : ℝ) + 3 / 2 = 3 / 2 + 1 by norm_num, Real.Gamma_add_one (by norm_num),
    show (3 : ℝ) / 2 = 1 + 1 / 2 by norm_num, gamma_three_half]
  ring

/-- Every branch agrees with the general Γ formula: one-, two-, three- and higher-dimensional Euclidean balls as well as
the general order. -/
theorem C50_branches_agree (d : Nat) (r p : ℝ) : unitBallVolume d r (.num p) = lpVolume d p r := by
  unfold unitBallVolume lpVolume
  have hs : Real.sqrt Real.pi ^ 2 = Real.pi := Real.sq_sqrt Real.pi_pos.le
  have hsp : Real.sqrt Real.pi ≠ 0 := (Real.sqrt_pos.2 Real.pi_pos).ne'
  by_cases h2 : p = 2
  · subst h2
    simp only [if_true]
    split_ifs with h1 h2 h3
    · subst h1
      rw [gamma_three_half, Nat.cast_one, gamma_three_half]
      field_simp
    · subst h2
      rw [gamma_three_half, show (1 : ℝ) + (2 : ℕ) / 2 = 1 + 1 by norm_num, Real.Gamma_add_one (by norm_num), Real.Gamma_one]
      linear_combination r ^ 2 * hs * (-1)
    · subst h3
      rw [gamma_three_half, show ((3 : ℕ) : ℝ) = 3 by norm_num, gamma_five_half]
      field_simp
      linear_combination (-1) * r ^ 3 * hs
    · rw [gamma_three_half]
      congr 1
      have e : Real.pi ^ ((d : ℝ) / 2) = Real.sqrt Real.pi ^ d := by
        rw [Real.sqrt_eq_rpow, ← Real.rpow_natCast, ← Real.rpow_mul Real.pi_pos.le]
        congr 1
        ring
      rw [div_pow, mul_pow, e]
      field_simp
  · simp only [h2, if_false]

/-- `unit_ball_volume(d, r, p)` is the Lebesgue volume of the closed ball of radius `r` in the Minkowski norm of order
`p`, for every dimension `d ≥ 1`, radius `r ≥ 0` and order `p ≥ 1`. -/
theorem C50_volume (d : Nat) (hd : 0 < d) (r : ℝ) (hr : 0 ≤ r) (p : ℝ) (hp : 1 ≤ p) :
    volume (lpBall d p r) = ENNReal.ofReal (unitBallVolume d r (.num p)) := by
  have : Nonempty (Fin d) := ⟨⟨0, hd⟩⟩
  rw [C50_branches_agree]
  unfold lpBall lpVolume
  rw [volume_sum_rpow_le (ι := Fin d) hp r, Fintype.card_fin, ← ENNReal.ofReal_pow hr, ← ENNReal.ofReal_mul (by positivity)]
  congr 1
  rw [add_comm (1 / p), add_comm ((d : ℝ) / p)]
  ring

example := C50_volume 3 (by decide) (1 / 2) (by norm_num) 2 (by norm_num)

/-- With the maximum norm it is the volume of the cube, in every dimension. -/
theorem C50_volume_max (d : Nat) (r : ℝ) (hr : 0 ≤ r) :
    volume (maxBall d r) = ENNReal.ofReal (unitBallVolume d r .inf) := by
  have h : maxBall d r = Metric.closedBall (0 : Fin d → ℝ) r := by
    ext x
    simp only [maxBall, Set.mem_ofPred_eq, Metric.mem_closedBall, dist_zero_right, pi_norm_le_iff_of_nonneg hr, Real.norm_eq_abs]
  rw [h, Real.volume_pi_closedBall _ hr, Fintype.card_fin]
  rfl

example := C50_volume_max 3 (1 / 2) (by norm_num)

theorem gamma_one_add_pos {x : ℝ} (hx : 0 ≤ x) : 0 < Real.Gamma (1 + x) := Real.Gamma_pos_of_pos (by linarith)

/-- The volume is positive for a positive radius, so its logarithm is finite. -/
theorem C50_pos (d : Nat) (r : ℝ) (hr : 0 < r) (p : PNorm) (hp : p.ok = true) : 0 < unitBallVolume d r p := by
  match p with
  | .inf => exact pow_pos (by linarith) d
  | .num p =>
    have hp1 : 1 ≤ p := by simpa [PNorm.ok] using hp
    rw [C50_branches_agree]
    unfold lpVolume
    have := gamma_one_add_pos (x := 1 / p) (by positivity)
    have := gamma_one_add_pos (x := (d : ℝ) / p) (by positivity)
    positivity

example := C50_pos 3 (1 / 2) (by norm_num) .inf rfl

/-- Scaling: the ball of radius `a * r` has `a ^ d` times the volume. -/
theorem C50_scale (d : Nat) (a r : ℝ) (p : PNorm) : unitBallVolume d (a * r) p = a ^ d * unitBallVolume d r p := by
  match p with
  | .inf => simp only [unitBallVolume]; rw [← mul_pow]; ring
  | .num p => rw [C50_branches_agree, C50_branches_agree]; unfold lpVolume; rw [show 2 * (a * r) = a * (2 * r) by ring, mul_pow]; ring

/-- What the Kozachenko–Leonenko estimator adds up, `log(c_d) + d * log(2 * ε)` with `c_d = unit_ball_volume(d, 1/2, p)`, is
the logarithm of the volume of the ball of radius `ε`. -/
theorem C50_log_volume (d : Nat) (ε : ℝ) (hε : 0 < ε) (p : PNorm) (hp : p.ok = true) :
    Real.log (unitBallVolume d (1 / 2) p) + d * Real.log (2 * ε) = Real.log (unitBallVolume d ε p) := by
  have h := C50_scale d (2 * ε) (1 / 2) p
  rw [show 2 * ε * (1 / 2) = ε by ring] at h
  rw [h, Real.log_mul (by positivity) (C50_pos d _ (by norm_num) p hp).ne', Real.log_pow]
  ring

example := C50_log_volume 3 (1 / 2) (by norm_num) .inf rfl

/-- The volume `V_m` used by the Rényi and Tsallis estimators is the volume of the Euclidean unit ball. -/
theorem C50_renyi_volume (m : Nat) (hm : 0 < m) :
    volume (lpBall m 2 1) = ENNReal.ofReal (Real.pi ^ ((m : ℝ) / 2) / Real.Gamma ((m : ℝ) / 2 + 1)) := by
  rw [C50_volume m hm 1 (by norm_num) 2 (by norm_num), C50_branches_agree]
  unfold lpVolume
  rw [gamma_three_half, add_comm (1 : ℝ)]
  congr 2
  have e : Real.pi ^ ((m : ℝ) / 2) = Real.sqrt Real.pi ^ m := by
    rw [Real.sqrt_eq_rpow, ← Real.rpow_natCast, ← Real.rpow_mul Real.pi_pos.le]
    congr 1
    ring
  rw [div_pow, e]
  field_simp

example := C50_renyi_volume 3 (by decide)

/-- Concrete: the disc of radius 2 has area 4π, the diamond `|x| + |y| ≤ 2` area 8, the square area 16. -/
theorem C50_concrete : unitBallVolume 2 2 (.num 2) = 4 * Real.pi ∧ unitBallVolume 2 2 (.num 1) = 8 ∧
    unitBallVolume 2 2 .inf = 16 := by
  refine ⟨by simp only [unitBallVolume]; norm_num; ring, ?_, by simp only [unitBallVolume]; norm_num⟩
  rw [C50_branches_agree]
  unfold lpVolume
  rw [show (1 : ℝ) + 1 / 1 = 1 + 1 by norm_num, show (1 : ℝ) + (2 : ℕ) / 1 = (1 + 1) + 1 by norm_num,
    Real.Gamma_add_one (by norm_num), Real.Gamma_add_one (by norm_num), Real.Gamma_one]
  norm_num

end Verif
