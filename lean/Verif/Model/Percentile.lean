import Verif.Model.Lifecycle

/-!
# Model of `StatisticalTestResult.percentile` and `confidence_interval` with the keyword `method`

`infomeasure/utils/data.py:167-246`.  The methods are those of `numpy.percentile`; each is a rule that turns a fraction `p = q / 100` into a position in
the sorted values, between whose neighbours the result is interpolated linearly.
-/

namespace Verif

/-- the names `numpy.percentile` knows -/
inductive PctMethod
  | invertedCdf | averagedInvertedCdf | closestObservation | interpolatedInvertedCdf | hazen | weibull | linear
  | medianUnbiased | normalUnbiased | lower | higher | midpoint | nearest

/-- look-up of the name in NumPy's table of methods -/
def PctMethod.ofName (s : String) : Option PctMethod :=
  [("inverted_cdf", invertedCdf), ("averaged_inverted_cdf", averagedInvertedCdf), ("closest_observation", closestObservation),
   ("interpolated_inverted_cdf", interpolatedInvertedCdf), ("hazen", hazen), ("weibull", weibull), ("linear", linear),
   ("median_unbiased", medianUnbiased), ("normal_unbiased", normalUnbiased), ("lower", lower), ("higher", higher),
   ("midpoint", midpoint), ("nearest", nearest)].lookup s

/-- `_compute_virtual_index` of NumPy -/
noncomputable def virtualIndex (n p α β : ℝ) : ℝ := n * p + (α + p * (1 - α - β)) - 1

/-- `numpy.around`: to the nearest integer, halves to the even one -/
noncomputable def npAround (x : ℝ) : ℝ :=
  open Classical in
  if x - ⌊x⌋ < 1 / 2 then ⌊x⌋ else if 1 / 2 < x - ⌊x⌋ then ⌊x⌋ + 1 else if Even ⌊x⌋ then ⌊x⌋ else ⌊x⌋ + 1

/-- the position in the sorted values (counted from 0, before clipping to the array) for the fraction `p` of `n` values.  `closest_observation`
chooses one of two neighbours in case of a tie by a parity rule that differs between NumPy versions: here an arbitrary rule `tie`. -/
noncomputable def PctMethod.position (tie : Int → Bool) (n p : ℝ) : PctMethod → ℝ
  | invertedCdf => ⌈n * p - 1⌉
  | averagedInvertedCdf => open Classical in if n * p - 1 = ⌊n * p - 1⌋ then n * p - 1 + 1 / 2 else ⌊n * p - 1⌋ + 1
  | closestObservation =>
    open Classical in if n * p - 1 - 1 / 2 = ⌊n * p - 1 - 1 / 2⌋ ∧ tie ⌊n * p - 1 - 1 / 2⌋ then ⌊n * p - 1 - 1 / 2⌋ else ⌊n * p - 1 - 1 / 2⌋ + 1
  | interpolatedInvertedCdf => virtualIndex n p 0 1
  | hazen => virtualIndex n p (1 / 2) (1 / 2)
  | weibull => virtualIndex n p 0 0
  | linear => p * (n - 1)
  | medianUnbiased => virtualIndex n p (1 / 3) (1 / 3)
  | normalUnbiased => virtualIndex n p (3 / 8) (3 / 8)
  | lower => ⌊p * (n - 1)⌋
  | higher => ⌈p * (n - 1)⌉
  | midpoint => 1 / 2 * (⌊p * (n - 1)⌋ + ⌈p * (n - 1)⌉)
  | nearest => npAround (p * (n - 1))

/-- `StatisticalTestResult.percentile(q, method)` for one `q`, `utils/data.py:167-203`; an unknown name is a ValueError of NumPy.  Positions before the
first and behind the last value are clipped. -/
noncomputable def percentileBy (tie : Int → Bool) (method : String) (vals : List ℝ) (q : ℝ) : Except Exc ℝ :=
  open Classical in
  if q < 0 ∨ 100 < q then .error .valueError
  else match PctMethod.ofName method with
    | none => .error .valueError
    | some m =>
      let s := vals.mergeSort (fun a b => decide (a ≤ b))
      let v : ℝ := max 0 (min (m.position tie s.length (q / 100)) ((s.length : ℝ) - 1))
      let lo := ⌊v⌋.toNat
      let hi := min (lo + 1) (s.length - 1)
      .ok (s.getD lo 0 + (s.getD hi 0 - s.getD lo 0) * (v - lo))

open Classical in
/-- `StatisticalTestResult.confidence_interval(level, method)`, `utils/data.py:205-246` -/
noncomputable def confidenceIntervalBy (tie : Int → Bool) (method : String) (vals : List ℝ) (level : ℝ) : Except Exc (ℝ × ℝ) :=
  if ¬ (0 < level ∧ level < 100) then .error .valueError
  else do
    let y := (100 - level) / 2
    let l ← percentileBy tie method vals y
    let u ← percentileBy tie method vals (100 - y)
    pure (l, u)

end Verif
