import Verif.Model.EndToEnd

/-!
# Specification: float arrays as symbols
-/

namespace Verif

/-- the one-dimensional array `d` (of integers or of floats) is the sequence `v` with the symbols renamed to numbers, different symbols to
different numbers -/
def Symbols (v : List Int) (d : PyData) : Prop :=
  ∃ f : Int → ℝ, (∀ x ∈ v, ∀ y ∈ v, f x = f y → x = y) ∧ d.toSeries = some (v.map f)

/-- the same for the float array with the elements `w` -/
def RealSymbols (v : List Int) (w : List ℝ) : Prop := Symbols v (.reals w)

/-- an array of floats is among the arguments -/
def HasReals (data : List PyData) : Prop := ∃ ys, PyData.reals ys ∈ data

end Verif
