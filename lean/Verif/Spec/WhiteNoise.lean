import Verif.Spec.AlmostSure
import Verif.Spec.Ordinal

/-!
# Vocabulary of C96: ordinal patterns of random readings
-/

namespace Verif.Spec

open MeasureTheory ProbabilityTheory

variable {Ω : Type} [MeasurableSpace Ω]

/-- the ordinal pattern of the window that starts at time `i`: embedding dimension `d`, step `s` -/
noncomputable def patternAt (X : ℕ → Ω → ℝ) (d s i : ℕ) (ω : Ω) : List ℕ := rankPattern ((List.range d).map (fun j => X (i + j * s) ω))

/-- independent and identically distributed random elements -/
structure Noise {α : Type} [MeasurableSpace α] (μ : Measure Ω) (U : ℕ → Ω → α) : Prop where
  measurable : ∀ i, Measurable (U i)
  indep : iIndepFun U μ
  same : ∀ i, IdentDistrib (U i) (U 0) μ μ

/-- no single reading has positive probability -/
def NoAtom (μ : Measure Ω) (X : ℕ → Ω → ℝ) : Prop := ∀ x, μ {ω | X 0 ω = x} = 0

/-- all ordinal patterns of `d` distinct readings: the permutations of `0, …, d - 1` -/
def allPatterns (d : ℕ) : Finset (List ℕ) := Finset.univ.image (fun σ : Equiv.Perm (Fin d) => List.ofFn (fun t => (σ t : ℕ)))

end Verif.Spec
