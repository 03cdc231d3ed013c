import Verif.Lemmas.Gauss3

/-! # Concrete data for the Gaussian kernel: series with spread in every direction -/

namespace Verif

open Matrix Spec

/-- three binary series, pairwise uncorrelated -/
def gEx : Fin 3 → List ℝ := ![[0, 1, 0, 1], [0, 0, 1, 1], [0, 1, 1, 0]]

theorem gEx_cov : covOf gEx = (1 / 3 : ℝ) • (1 : Matrix (Fin 3) (Fin 3) ℝ) := by
  ext i j
  fin_cases i <;> fin_cases j <;>
    norm_num [covOf, sampleCov, gEx, mean, Matrix.one_apply]

theorem gEx_spread : Spread gEx := by
  intro v hv
  rw [gEx_cov, smul_mulVec, one_mulVec, dotProduct_smul, hv]
  norm_num

theorem gEx_length : ∀ j, (gEx j).length = 4 := by
  intro j; fin_cases j <;> rfl

theorem gEx_var : ∀ j, sampleVar (gEx j) = 1 / 3 := by
  intro j
  have := congrFun (congrFun gEx_cov j) j
  simpa [covOf, sampleVar] using this

theorem gMean_affine (xs : List ℝ) (hx : xs ≠ []) (a c : ℝ) : mean (xs.map (fun x => a * x + c)) = a * mean xs + c := by
  have hl : (xs.length : ℝ) ≠ 0 := by exact_mod_cast (List.length_pos_iff.2 hx).ne'
  have hs : ∀ l : List ℝ, (l.map (fun x => a * x + c)).sum = a * l.sum + l.length * c := by
    intro l
    induction l with
    | nil => simp
    | cons x r ih => simp only [List.map_cons, List.sum_cons, ih, List.length_cons, Nat.cast_add, Nat.cast_one]; ring
  simp only [mean, hs, List.length_map]
  field_simp

theorem gCov_affine (xs ys : List ℝ) (hx : xs ≠ []) (hy : ys ≠ []) (a c a' c' : ℝ) :
    sampleCov (xs.map (fun x => a * x + c)) (ys.map (fun x => a' * x + c')) = a * a' * sampleCov xs ys := by
  have hs : ∀ (l : List (ℝ × ℝ)) (u v : ℝ), ((l.map (Prod.map (fun x => a * x + c) (fun x => a' * x + c'))).map
      (fun p => (p.1 - (a * u + c)) * (p.2 - (a' * v + c')))).sum = a * a' * (l.map (fun p => (p.1 - u) * (p.2 - v))).sum := by
    intro l u v
    induction l with
    | nil => simp
    | cons x r ih =>
      simp only [List.map_cons, List.sum_cons, ih, Prod.map_fst, Prod.map_snd]
      ring
  unfold sampleCov
  rw [gMean_affine xs hx, gMean_affine ys hy, List.zip_map, hs, List.length_map]
  ring

/-- uncorrelated series keep their spread under affine maps that do not shrink -/
theorem gSpread_affine {m : Nat} {X : Fin m → List ℝ} {r : ℝ} (hr : 1 / 10 ^ 10 < r) (hc : covOf X = r • (1 : Matrix (Fin m) (Fin m) ℝ))
    (hX : ∀ j, X j ≠ []) (a c : Fin m → ℝ) (ha : ∀ j, 1 ≤ a j ^ 2) : Spread (fun j => (X j).map (fun x => a j * x + c j)) := by
  intro v hv
  have hcov : covOf (fun j => (X j).map (fun x => a j * x + c j)) = diagonal (fun j => a j ^ 2 * r) := by
    ext i j
    have := congrFun (congrFun hc i) j
    simp only [covOf] at this ⊢
    rw [gCov_affine _ _ (hX i) (hX j), this]
    by_cases h : i = j
    · subst h; simp [pow_two]
    · simp [h]
  rw [hcov]
  have e : v ⬝ᵥ (diagonal (fun j => a j ^ 2 * r) *ᵥ v) = ∑ j, r * (a j ^ 2 * (v j * v j)) := by
    simp only [dotProduct, mulVec_diagonal]
    exact Finset.sum_congr rfl fun j _ => by ring
  rw [e, ← Finset.mul_sum]
  have h0 : (0:ℝ) < r := lt_trans (by norm_num) hr
  have h1 : (1:ℝ) ≤ ∑ j, a j ^ 2 * (v j * v j) := by
    rw [← hv]
    exact Finset.sum_le_sum fun j _ => le_mul_of_one_le_left (mul_self_nonneg _) (ha j)
  nlinarith

theorem gEx_ne : ∀ j, gEx j ≠ [] := by intro j; fin_cases j <;> simp [gEx]

/-- two series of three distinct values -/
def gPair : Fin 2 → List ℝ := ![[0, 1, 2], [0, 2, 1]]

theorem gPair_spread : Spread gPair := by
  intro v hv
  have hc : covOf gPair = !![1, 1 / 2; 1 / 2, 1] := by
    ext i j
    fin_cases i <;> fin_cases j <;> norm_num [covOf, sampleCov, mean, gPair]
  rw [hc]
  simp only [dotProduct, Fin.sum_univ_two, mulVec] at hv ⊢
  simp
  nlinarith [sq_nonneg (v 0 + v 1), hv]

theorem gPair_length : ∀ j, (gPair j).length = 3 := by
  intro j; fin_cases j <;> rfl

theorem gPair_nodup : ∀ j, (gPair j).Nodup := by
  intro j; fin_cases j <;> norm_num [gPair]

theorem gVar_pos : (0 : ℝ) < sampleVar [0, 1, 0, 1] := by
  have := gEx_var 0
  rw [show gEx 0 = [0, 1, 0, 1] from rfl] at this
  rw [this]; norm_num

theorem gVar_pos' : (0 : ℝ) < sampleVar [2, 5] := by norm_num [sampleVar, sampleCov, mean]

/-- four binary series of length eight, pairwise uncorrelated -/
def gFour : Fin 4 → List ℝ :=
  ![[0, 1, 0, 1, 0, 1, 0, 1], [0, 0, 1, 1, 0, 0, 1, 1], [0, 1, 1, 0, 0, 1, 1, 0], [0, 0, 0, 0, 1, 1, 1, 1]]

theorem gFour_cov : covOf gFour = (2 / 7 : ℝ) • (1 : Matrix (Fin 4) (Fin 4) ℝ) := by
  ext i j
  fin_cases i <;> fin_cases j <;>
    norm_num [covOf, sampleCov, gFour, mean, Matrix.one_apply]

theorem gFour_ne : ∀ j, gFour j ≠ [] := by intro j; fin_cases j <;> simp [gFour]

theorem gFour_spread : Spread gFour := by
  intro v hv
  rw [gFour_cov, smul_mulVec, one_mulVec, dotProduct_smul, hv]
  norm_num

end Verif
