import Verif.Spec.EndToEndBase

/-!
# Specification: the same numbers as integers and as floats
-/

namespace Verif

/-- the same data with floats instead of integers: `x.astype(float)`, also inside a tuple -/
def PyData.asFloat : PyData → PyData
  | .ints xs => .reals (xs.map (fun z : Int => (z : ℝ)))
  | .imat c rows => .mat ⟨c, rows.map (fun r => r.map (fun z : Int => (z : ℝ)))⟩
  | .intTup cols => .tup (cols.map (fun xs => .one (xs.map (fun z : Int => (z : ℝ)))))
  | d => d

/-- the same for a condition -/
def CondKw.asFloat : CondKw PyData → CondKw PyData
  | .val z => .val z.asFloat
  | c => c

/-- the keyword arguments that are real numbers -/
def realKw : List String := ["base", "bandwidth", "alpha", "q", "noise_level", "minkowski_p", "undersampled"]

/-- the keyword arguments with `k=v` -/
def withKw (kw : Kw) (k : String) (v : PyVal) : Kw := fun j => if j = k then some v else kw j

/-- the Python value is no positive number: `None`, a string, zero or a negative number -/
def NotPositive (v : PyVal) : Prop := v = .none ∨ (∃ s, v = .str s) ∨ ∃ x, IsNumber v x ∧ x ≤ 0

/-- `base=v`: the unit of information in nats, 1 for `"e"` and `ln x` for the number `x > 0`, `x ≠ 1` -/
def UnitIs (v : PyVal) (r : ℝ) : Prop := (v = .str "e" ∧ r = 1) ∨ ∃ x, IsNumber v x ∧ 0 < x ∧ x ≠ 1 ∧ r = Real.log x

/-- `minkowski_p=v`: the maximum norm (`none`) for infinity, the Minkowski norm of order `x` for a number `x ≥ 1` -/
def NormIs (v : PyVal) (p : Option ℝ) : Prop := (v = .inf ∧ p = none) ∨ ∃ x, IsNumber v x ∧ 1 ≤ x ∧ p = some x

/-- the parameter of an approach that must be a positive number -/
def positiveKw : Fam → Option String
  | .kernel => some "bandwidth"
  | .renyi => some "alpha"
  | .tsallis => some "q"
  | _ => none

end Verif
