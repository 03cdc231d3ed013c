import Verif.Props.WhiteNoise
import Verif.Props.WhiteNoiseTE
import Verif.Props.EndToEndEx
import Mathlib.Probability.Independence.InfinitePi
import Mathlib.MeasureTheory.Measure.Lebesgue.Basic

/-!
# C96: concrete random sequences that meet the hypotheses
-/

namespace Verif

open Spec MeasureTheory ProbabilityTheory

/-- the uniform distribution on [0, 1] -/
noncomputable def noUnif : Measure ℝ := volume.restrict (Set.Icc 0 1)

instance : IsProbabilityMeasure noUnif := ⟨by simp [noUnif]⟩

/-- independent uniform readings -/
noncomputable abbrev noUnifs : Measure (ℕ → ℝ) := Measure.infinitePi (fun _ => noUnif)

/-- every injective selection of them is white noise -/
theorem noEx_noise (c : ℕ → ℕ) (hc : c.Injective) : Noise noUnifs (fun i ω => ω (c i)) where
  measurable i := measurable_pi_apply _
  indep := (iIndepFun_infinitePi (X := fun _ : ℕ => (id : ℝ → ℝ)) (P := fun _ : ℕ => noUnif) (fun _ => measurable_id)).precomp hc
  same i := ⟨(measurable_pi_apply _).aemeasurable, (measurable_pi_apply _).aemeasurable,
    (Measure.infinitePi_map_eval (fun _ : ℕ => noUnif) (c i)).trans (Measure.infinitePi_map_eval (fun _ : ℕ => noUnif) (c 0)).symm⟩

theorem noEx_atom (c : ℕ → ℕ) : NoAtom noUnifs (fun i ω => ω (c i)) := fun x => by
  have := Measure.infinitePi_map_eval (fun _ : ℕ => noUnif) (c 0)
  have h2 : (Measure.map (fun ω : ℕ → ℝ => ω (c 0)) noUnifs) {x} = 0 := by
    rw [show (fun ω : ℕ → ℝ => ω (c 0)) = Function.eval (c 0) from rfl, this, noUnif]
    simp
  rwa [Measure.map_apply (show Measurable (fun ω : ℕ → ℝ => ω (c 0)) from measurable_pi_apply _) (measurableSet_singleton x)] at h2

/-- the readings at even and those at odd times are independent -/
theorem noEx_indep : SeriesIndep noUnifs (fun i ω => ω (2 * i)) (fun i ω => ω (2 * i + 1)) := by
  have h := iIndepFun_infinitePi (X := fun _ : ℕ => (id : ℝ → ℝ)) (P := fun _ : ℕ => noUnif) (fun _ => measurable_id)
  have hi := indep_iSup_of_disjoint (m := fun i => MeasurableSpace.comap (fun ω : ℕ → ℝ => ω i) inferInstance)
    (fun i => (measurable_pi_apply i).comap_le) h (S := Set.range (fun i => 2 * i)) (T := Set.range (fun i => 2 * i + 1)) (by
      rw [Set.disjoint_left]
      rintro _ ⟨i, rfl⟩ ⟨j, e⟩
      simp only at e
      omega)
  have hsub : ∀ c : ℕ → ℕ, MeasurableSpace.comap (fun (ω : ℕ → ℝ) (i : ℕ) => ω (c i)) MeasurableSpace.pi ≤
      ⨆ i ∈ Set.range c, MeasurableSpace.comap (fun ω : ℕ → ℝ => ω i) inferInstance := fun c => by
    rw [MeasurableSpace.pi, MeasurableSpace.comap_iSup]
    refine iSup_le fun i => ?_
    rw [MeasurableSpace.comap_comp]
    exact le_iSup₂_of_le (c i) ⟨i, rfl⟩ le_rfl
  exact indep_of_indep_of_le_left (indep_of_indep_of_le_right hi (hsub (fun i => 2 * i + 1))) (hsub (fun i => 2 * i))

theorem noEx_even : Function.Injective (fun i : ℕ => 2 * i) := fun i j e => by simpa using e
theorem noEx_odd : Function.Injective (fun i : ℕ => 2 * i + 1) := fun i j e => by simpa using e

example := C96_patterns (d := 3) (s := 2) (noEx_noise _ noEx_even) (noEx_atom _) (by norm_num)
example := C96_entropy (d := 3) (s := 2) (b := .e) (call "ordinal", [("embedding_dim", .int 3), ("step_size", .int 2)]) trivial false (by kw) (by kw) (by kw)
  (by norm_num) (by norm_num) (Nat.succ_pos _) (C96_patterns (d := 3) (s := 2) (noEx_noise _ noEx_even) (noEx_atom _) (by norm_num))
  (noise_distinct (noEx_noise _ noEx_even) (noEx_atom _))
example := C96_entropy_noise (d := 3) (s := 2) (b := .num 2) (call "permutation", [("embedding_dim", .int 3), ("step_size", .int 2), ("base", .int 2)])
  (by norm_num [Base.Valid]) false (by kw) (by kw) (by kw) (by norm_num) (by norm_num) (noEx_noise _ noEx_even) (noEx_atom _)
example := C96_mi (d := 3) (s := 1) (b := .e) (cond := .absent) (call "ordinal", [("embedding_dim", .int 3)]) trivial rfl (by kw) false (by kw) (by kw) (by kw)
  (by norm_num) (by norm_num) (Nat.succ_pos _)
  (C96_pattern_pairs (d := 3) (s := 1) (noEx_noise _ noEx_even) (noEx_atom _) (noEx_noise _ noEx_odd) (noEx_atom _) noEx_indep one_pos)
  (noise_distinct (noEx_noise _ noEx_even) (noEx_atom _)) (noise_distinct (noEx_noise _ noEx_odd) (noEx_atom _))
example := C96_mi_noise (d := 3) (s := 1) (b := .e) (cond := .absent) (call "ordinal", [("embedding_dim", .int 3)]) trivial rfl (by kw) false (by kw) (by kw)
  (by kw) (by norm_num) (by norm_num) (noEx_noise _ noEx_even) (noEx_atom _) (noEx_noise _ noEx_odd) (noEx_atom _) noEx_indep
example := C96_te_noise (d := 3) (s := 1) (l := 1) (k := 2) (b := .e) (cond := .absent)
  (call "ordinal", [("embedding_dim", .int 3), ("dest_hist_len", .int 2)]) trivial rfl ⟨by kw, by kw, by kw, by kw, by kw⟩ false (by kw) (by kw)
  (by norm_num) (by norm_num) le_rfl (by norm_num) (by norm_num)
  (noEx_noise _ noEx_even) (noEx_atom _) (noEx_noise _ noEx_odd) (noEx_atom _) noEx_indep

end Verif
