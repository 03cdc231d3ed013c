import Verif.Model.MI
import Mathlib.NumberTheory.Harmonic.GammaDeriv

/-!
# Model of the bias-corrected discrete entropy estimators

`infomeasure/estimators/entropy/{miller_madow,grassberger,chao_shen,chao_wang_jost,shrink,bayes,
zhang,bonachela,ansb}.py`.  All of them inherit the constructor `DiscreteHEstimator.__init__`
(`discreteHInit`).  Debug logging and warnings have no effect on results and are left out.
-/

namespace Verif

/-- `scipy.special.digamma` on a real argument: the logarithmic derivative of Γ. -/
noncomputable def digamma (x : ℝ) : ℝ := deriv Real.Gamma x / Real.Gamma x

/-- `scipy.special.digamma` on integers: not finite at the poles 0, −1, −2, … -/
noncomputable def npDigamma (n : Int) : Except Exc ℝ :=
  if 0 < n then .ok (digamma n) else .error .nonFinite

/-- real division with the IEEE convention that division by zero is not finite -/
noncomputable def npDiv (a b : ℝ) : Except Exc ℝ :=
  open Classical in if b = 0 then .error .nonFinite else .ok (a / b)

/-- number of entries of the counts array equal to `v` (`np_sum(counts == v)`) -/
def countEq {α : Type} (d : DiscreteData α) (v : Int) : Nat :=
  d.counts.countP (fun c => decide (c = v))

/-- iterating over `self.data[0].data`; `None` is not iterable -/
def DiscreteData.samples {α : Type} (d : DiscreteData α) : Except Exc (List α) :=
  match d.data with
  | some xs => .ok xs
  | none => .error .typeError

section
variable {α : Type}

/-! ### Miller–Madow -/

/-- `MillerMadowEntropyEstimator._mm_factor`, `entropy/miller_madow.py:58-65`. -/
noncomputable def mmFactor (base : Base) (d : DiscreteData α) : Except Exc ℝ :=
  scaleBase base (((d.K : ℝ) - 1) / (2 * (d.N : ℝ)))

/-- `MillerMadowEntropyEstimator._simple_entropy`, `entropy/miller_madow.py:29-41`.  (The code
evaluates the correction first; it cannot raise, so the order of the two is not observable.) -/
noncomputable def mmSimple (base : Base) (d : DiscreteData α) : Except Exc ℝ := do
  let h ← discreteSimple base d
  let c ← mmFactor base d
  pure (h + c)

/-- `MillerMadowEntropyEstimator._extract_local_values`, `entropy/miller_madow.py:43-56`. -/
noncomputable def mmLocal [DecidableEq α] (base : Base) (d : DiscreteData α) :
    Except Exc (List ℝ) := do
  let l ← discreteLocal base d
  let c ← mmFactor base d
  pure (l.map (fun v => v + c))

/-- `MillerMadowEntropyEstimator._cross_entropy`, `entropy/miller_madow.py:67-92`. -/
noncomputable def mmCross [DecidableEq α] (base : Base) (p q : DiscreteData α) : Except Exc ℝ :=
  let common := commonSupport p.uniq q.uniq
  if common.length = 0 then .ok 0
  else do
    let terms ← common.mapM (fun v => do
      let pv ← dictGet p.distributionDict v
      let qv ← dictGet q.distributionDict v
      let l ← logBase base qv
      pure (pv * l))
    let n : ℝ := (p.N : ℝ) + (q.N : ℝ)
    let k : ℝ := ((p.K : ℝ) + (q.K : ℝ)) / 2 - 1
    let c ← scaleBase base (k / n)
    pure (- terms.sum + c)

/-! ### Grassberger -/

/-- `GrassbergerEntropyEstimator._simple_entropy`, `entropy/grassberger.py:29-49`: returns the array of
local values. -/
noncomputable def grassbergerLocal [DecidableEq α] (base : Base) (d : DiscreteData α) :
    Except Exc (List ℝ) := do
  let data ← d.samples
  let ns ← data.mapM (dictGet (d.uniq.zip d.counts))
  let lN ← npLog (d.N : ℝ)
  ns.mapM (fun n => do
    let ψ ← npDigamma n
    let r ← npDiv (((-1 : ℝ)) ^ n.toNat) ((n : ℝ) + 1)
    scaleBase base (lN - ψ - r))

/-- the global value `Estimator.calculate` makes of an array: its mean, `estimators/base.py:74-99` -/
noncomputable def meanOf (l : List ℝ) : ℝ := l.sum / l.length

/-- Grassberger global value: mean of the array. -/
noncomputable def grassbergerSimple [DecidableEq α] (base : Base) (d : DiscreteData α) :
    Except Exc ℝ :=
  (grassbergerLocal base d).map meanOf

/-! ### Chao–Shen -/

/-- the coverage `C` of `entropy/chao_shen.py:45-52` -/
noncomputable def csCoverage (d : DiscreteData α) : ℝ :=
  let f1 : Int := countEq d 1
  let f1' : Int := if f1 = d.N then f1 - 1 else f1
  1 - (f1' : ℝ) / (d.N : ℝ)

/-- `ChaoShenEntropyEstimator._simple_entropy`, `entropy/chao_shen.py:36-63`. -/
noncomputable def chaoShenSimple (base : Base) (d : DiscreteData α) : Except Exc ℝ := do
  let c := csCoverage d
  let terms ← d.probabilities.mapM (fun p => do
    let pa := c * p
    let la := 1 - (1 - pa) ^ d.N.toNat
    let l ← npLog pa
    npDiv (pa * l) la)
  scaleBase base (- terms.sum)

/-! ### Chao–Wang–Jost -/

/-- the parameter `A` of `entropy/chao_wang_jost.py:107-125`; the denominators are at least 2 -/
noncomputable def cwjA (d : DiscreteData α) : ℝ :=
  let f1 := countEq d 1
  let f2 := countEq d 2
  let n : ℝ := (d.N : ℝ)
  if 0 < f2 then 2 * f2 / ((n - 1) * f1 + 2 * f2)
  else if 0 < f1 then 2 / ((n - 1) * ((f1 : ℝ) - 1) + 2)
  else 1

/-- the correction term of `entropy/chao_wang_jost.py:132-137`.  `(1-A) ** (1-N)` is written as the
inverse of `(1-A) ** (N-1)`. -/
noncomputable def cwjCorrection (d : DiscreteData α) : ℝ :=
  let a := cwjA d
  let p2 : ℝ := ((List.range (d.N.toNat - 1)).map (fun i : Nat => 1 / ((i : ℝ) + 1) * (1 - a) ^ (i + 1))).sum
  (countEq d 1 : ℝ) / (d.N : ℝ) * ((1 - a) ^ (d.N.toNat - 1))⁻¹ * (- Real.log a - p2)

open Classical in
/-- `ChaoWangJostEntropyEstimator._simple_entropy`, `entropy/chao_wang_jost.py:96-142`. -/
noncomputable def cwjSimple (base : Base) (d : DiscreteData α) : Except Exc ℝ := do
  let ψN ← npDigamma d.N
  let terms ← (d.counts.filter (fun c => decide (1 ≤ c))).mapM (fun c => do
    let ψ ← npDigamma c
    pure ((c : ℝ) * (ψN - ψ)))
  let h := terms.sum / (d.N : ℝ)
  let h' := if cwjA d ≠ 1 ∧ 0 < countEq d 1 then h + cwjCorrection d else h
  scaleBase base h'

/-! ### Shrinkage -/

open Classical in
/-- `ShrinkEntropyEstimator._calculate_lambda_shrink`, `entropy/shrink.py:54-87`. -/
noncomputable def shrinkLambda (N : Int) (u : List ℝ) (t : ℝ) : ℝ :=
  let varu := u.map (fun p => p * (1 - p) / ((N : ℝ) - 1))
  let msp := (u.map (fun p => (p - t) ^ 2)).sum
  if msp = 0 then 1
  else
    let l := varu.sum / msp
    if l > 1 then 1 else if l < 0 then 0 else l

/-- `ShrinkEntropyEstimator._shrink_probs`, `entropy/shrink.py:113-128`. -/
noncomputable def shrinkProbs (d : DiscreteData α) : List ℝ :=
  let t : ℝ := 1 / (d.K : ℝ)
  let l := if d.N = 0 ∨ d.N = 1 then 1 else shrinkLambda d.N d.probabilities t
  d.probabilities.map (fun p => l * t + (1 - l) * p)

/-- `ShrinkEntropyEstimator._simple_entropy`, `entropy/shrink.py:39-52`. -/
noncomputable def shrinkSimple (base : Base) (d : DiscreteData α) : Except Exc ℝ := do
  let terms ← (shrinkProbs d).mapM (fun p => do
    let l ← logBase base p
    pure (p * l))
  pure (- terms.sum)

/-- `ShrinkEntropyEstimator._extract_local_values`, `entropy/shrink.py:89-104`. -/
noncomputable def shrinkLocal [DecidableEq α] (base : Base) (d : DiscreteData α) :
    Except Exc (List ℝ) := do
  let data ← d.samples
  data.mapM (fun v => do
    let p ← dictGet (d.uniq.zip (shrinkProbs d)) v
    let l ← logBase base p
    pure (- l))

/-! ### Bayes -/

/-- the `alpha` argument: a number, a string, or something else -/
inductive AlphaArg
  | num (a : ℝ)
  | str (s : String)
  | other

/-- `BayesEntropyEstimator._get_alpha`, `entropy/bayes.py:120-147`. -/
noncomputable def getAlpha (alpha : AlphaArg) (K N : ℝ) : Except Exc ℝ :=
  match alpha with
  | .num a => .ok a
  | .other => .error .valueError
  | .str s =>
    if s.toLower ∉ ["jeffrey", "laplace", "sch-grass", "min-max"] then .error .valueError
    else if s.toLower = "jeffrey" then .ok (1 / 2)
    else if s.toLower = "laplace" then .ok 1
    else if s.toLower = "sch-grass" then npDiv 1 K
    else if s = "min-max" then npDiv (Real.sqrt N) K
    else .error .valueError

/-- `K = self.K_param if self.K_param is not None else self.data[0].K`, `entropy/bayes.py:107` -/
noncomputable def bayesK (kParam : Option Nat) (d : DiscreteData α) : ℝ :=
  match kParam with
  | some k => (k : ℝ)
  | none => (d.K : ℝ)

/-- `BayesEntropyEstimator.bayes_probs`, `entropy/bayes.py:105-113`; `kParam = none` is `K=None`. -/
noncomputable def bayesProbs (alpha : AlphaArg) (kParam : Option Nat) (d : DiscreteData α) :
    Except Exc (List ℝ) := do
  let a ← getAlpha alpha (bayesK kParam d) (d.N : ℝ)
  let weight := (d.N : ℝ) + bayesK kParam d * a
  d.counts.mapM (fun c : Int => npDiv ((c : ℝ) + a) weight)

/-- `BayesEntropyEstimator._simple_entropy`, `entropy/bayes.py:92-103`. -/
noncomputable def bayesSimple (alpha : AlphaArg) (kParam : Option Nat) (base : Base)
    (d : DiscreteData α) : Except Exc ℝ := do
  let ps ← bayesProbs alpha kParam d
  let terms ← ps.mapM (fun p => do
    let l ← logBase base p
    pure (p * l))
  pure (- terms.sum)

/-- `BayesEntropyEstimator._cross_entropy`, `entropy/bayes.py:149-187`. -/
noncomputable def bayesCross [DecidableEq α] (alpha : AlphaArg) (kParam : Option Nat) (base : Base)
    (p q : DiscreteData α) : Except Exc ℝ := do
  let dp ← bayesProbs alpha kParam p
  let dq ← bayesProbs alpha kParam q
  let common := commonSupport p.uniq q.uniq
  if common.length = 0 then .ok 0
  else do
    let terms ← common.mapM (fun v => do
      let pv ← dictGet (p.uniq.zip dp) v
      let qv ← dictGet (q.uniq.zip dq) v
      let l ← logBase base qv
      pure (pv * l))
    pure (- terms.sum)

/-! ### Zhang -/

/-- `numpy.cumprod` -/
noncomputable def npCumprod (l : List ℝ) : List ℝ :=
  (List.range l.length).map (fun i => (l.take (i + 1)).prod)

/-- one row of `_compute_vectorized_bias_correction_terms`, `entropy/zhang.py:8-48`:
`k_values`, mask, factors (masked to 1), cumulative product (masked to 0), sum of `t1/k`. -/
noncomputable def zhangT2 (N maxK n : Int) : ℝ :=
  let ks : List Int := (List.range maxK.toNat).map (fun i : Nat => (i : Int) + 1)
  let factors := ks.map (fun k => if k ≤ N - n then 1 - ((n : ℝ) - 1) / ((N : ℝ) - k) else 1)
  let t1 := npCumprod factors
  ((ks.zip t1).map (fun e => (if e.1 ≤ N - n then e.2 else 0) * (1 / (e.1 : ℝ)))).sum

/-- counts strictly between 0 and `N`, `entropy/zhang.py:87-88` -/
def zhangValid (d : DiscreteData α) : List Int :=
  d.counts.filter (fun c => decide (0 < c) && decide (c < d.N))

/-- `valid_counts.min()` (of a non-empty list) -/
def minInt (l : List Int) : Int := l.foldl min (l.headD 0)

/-- `ZhangEntropyEstimator._simple_entropy`, `entropy/zhang.py:74-114`. -/
noncomputable def zhangSimple (base : Base) (d : DiscreteData α) : Except Exc ℝ :=
  let valid := zhangValid d
  if valid.length = 0 then .ok 0
  else
    let maxK := d.N - minInt valid
    if maxK ≤ 0 then .ok 0
    else
      let contributions := valid.map (fun n => zhangT2 d.N maxK n * ((n : ℝ) / (d.N : ℝ)))
      scaleBase base contributions.sum

/-- `zhang_contributions` of `ZhangEntropyEstimator._extract_local_values`, `entropy/zhang.py:124-158`,
as the association list in insertion order: first the values with an invalid count, then the valid
ones. -/
noncomputable def zhangDict (d : DiscreteData α) : List (α × ℝ) :=
  let pairs := d.uniq.zip d.counts
  let validPairs := pairs.filter (fun e => decide (0 < e.2) && decide (e.2 < d.N))
  let invalid := (pairs.filter (fun e => decide (e.2 = 0) || decide (d.N ≤ e.2))).map
    (fun e => (e.1, (0 : ℝ)))
  let valid := zhangValid d
  let maxK := d.N - minInt valid
  invalid ++ validPairs.map (fun e => (e.1, if maxK > 0 then zhangT2 d.N maxK e.2 else 0))

/-- `ZhangEntropyEstimator._extract_local_values`, `entropy/zhang.py:116-167`. -/
noncomputable def zhangLocal [DecidableEq α] (base : Base) (d : DiscreteData α) :
    Except Exc (List ℝ) := do
  let data ← d.samples
  let vs ← data.mapM (dictGet (zhangDict d))
  vs.mapM (scaleBase base)

/-! ### Bonachela -/

/-- `BonachelaEntropyEstimator._simple_entropy`, `entropy/bonachela.py:33-76`. -/
noncomputable def bonachelaSimple (base : Base) (d : DiscreteData α) : Except Exc ℝ := do
  let js : List Int := (List.range (d.N + 1).toNat).map (fun i : Nat => (i : Int) + 2)
  let contributions := d.counts.map (fun c =>
    let ni : Int := c + 1
    let inner := (js.map (fun j => (if ni < j then 1 else 0) * (1 / (j : ℝ)))).sum
    (ni : ℝ) * inner)
  let ent ← npDiv contributions.sum ((d.N : ℝ) + 2)
  scaleBase base ent

/-! ### ANSB -/

/-- `AnsbEntropyEstimator._simple_entropy`, `entropy/ansb.py:79-112`; `nan` is `nonFinite`. -/
noncomputable def ansbSimple (kGiven : Option Int) (base : Base) (d : DiscreteData α) :
    Except Exc ℝ := do
  let k : Int := match kGiven with | some k => k | none => (d.K : Int)
  let delta := d.N - k
  if delta = 0 then .error .nonFinite
  else do
    let lN ← npLog (d.N : ℝ)
    let ψ ← npDigamma delta
    scaleBase base ((Real.eulerMascheroniConstant - Real.log 2) + 2 * lN - ψ)

end

/-! ### The estimator classes as the generic mutual information uses them

Classes that do not define `_extract_local_values` raise `UnsupportedOperation` in `local_vals`
(`estimators/base.py:130-169`); Chao–Wang–Jost, Bonachela and ANSB raise
`TheoreticalInconsistencyError`. -/

/-- `MillerMadowEntropyEstimator` -/
noncomputable def millerMadowH (base : Base) : HEst := ⟨mmSimple base, mmLocal base⟩
/-- `GrassbergerEntropyEstimator` -/
noncomputable def grassbergerH (base : Base) : HEst := ⟨grassbergerSimple base, grassbergerLocal base⟩
/-- `ChaoShenEntropyEstimator`: no `_extract_local_values` -/
noncomputable def chaoShenH (base : Base) : HEst :=
  ⟨chaoShenSimple base, fun _ => .error .unsupportedOperation⟩
/-- `ChaoWangJostEntropyEstimator`, locals: `entropy/chao_wang_jost.py:144-159` -/
noncomputable def chaoWangJostH (base : Base) : HEst :=
  ⟨cwjSimple base, fun _ => .error .theoreticalInconsistency⟩
/-- `ShrinkEntropyEstimator` -/
noncomputable def shrinkH (base : Base) : HEst := ⟨shrinkSimple base, shrinkLocal base⟩
/-- `BayesEntropyEstimator`, constructor `entropy/bayes.py:66-90`: no `_extract_local_values` -/
noncomputable def bayesH (alpha : AlphaArg) (kParam : Option Nat) (base : Base) : HEst :=
  ⟨bayesSimple alpha kParam base, fun _ => .error .unsupportedOperation⟩
/-- `ZhangEntropyEstimator` -/
noncomputable def zhangH (base : Base) : HEst := ⟨zhangSimple base, zhangLocal base⟩
/-- `BonachelaEntropyEstimator`, locals: `entropy/bonachela.py:78-89` -/
noncomputable def bonachelaH (base : Base) : HEst :=
  ⟨bonachelaSimple base, fun _ => .error .theoreticalInconsistency⟩
/-- `AnsbEntropyEstimator`, constructor `entropy/ansb.py:67-77`, locals: `entropy/ansb.py:114-126` -/
noncomputable def ansbH (kGiven : Option Int) (base : Base) : HEst :=
  ⟨ansbSimple kGiven base, fun _ => .error .theoreticalInconsistency⟩

end Verif
