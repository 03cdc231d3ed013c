import Verif.Model.Ordinal
import Verif.Model.Lifecycle

/-!
# Model of the ordinal (conditional) mutual information and transfer entropy

`infomeasure/estimators/mutual_information/ordinal.py`,
`infomeasure/estimators/transfer_entropy/ordinal.py`.

One-dimensional observations of an arbitrary linearly ordered type; arrays with more dimensions are a
TypeError in the code and are not modelled here.
-/

namespace Verif

section
variable {α : Type} [LinearOrder α] [Inhabited α]

/-- the checks after the base constructor, `mutual_information/ordinal.py:87-114`; `lo` is the least
accepted step size (1 here, 0 in `transfer_entropy/ordinal.py:149-156`), `n` the length of the (already
shifted) first variable.  Returns embedding dimension and step. -/
def ordPairChecks (lo : Int) (n : Nat) (dim step : PyArg) : Except Exc (Int × Int) :=
  if dim.intGe 0 = false then .error .valueError
  else if step.intGe lo = false then .error .valueError
  else if (n : Int) < (dim.val - 1) * step.val + 1 then .error .valueError
  else .ok (dim.val, step.val)

/-- `reduce_joint_space(symbolize_series(var, ..., to_int=False))`,
`mutual_information/ordinal.py:120-131` -/
def ordSymbols (q : Argsort α) (d step : Int) (stable : Bool) (x : List α) : Except Exc (List Int) := do
  let pats ← symbolize q x d step stable
  reduceJointSpace (.arr2 (pats.map (fun p => p.map Int.ofNat)))

/-- what the constructor keeps: the embedding dimension and the symbols of every variable -/
structure OrdMIState where
  dim : Int
  symbols : List (List Int)

/-- `BaseOrdinalMIEstimator.__init__` without condition, `mutual_information/ordinal.py:64-133` -/
def ordMIInit (q : Argsort α) (data : List (List α)) (p : OrdParams) (offset : Option Int) :
    Except Exc OrdMIState := do
  let d ← miInit data offset
  let ds ← ordPairChecks 1 (d.headD []).length p.dim p.step
  let syms ← d.mapM (ordSymbols q ds.1 ds.2 p.stable)
  pure { dim := ds.1, symbols := syms }

/-- `OrdinalMIEstimator._calculate`, `mutual_information/ordinal.py:177-183` -/
noncomputable def ordMICalculate (s : OrdMIState) (b : Base) : Except Exc ℝ :=
  if s.dim = 1 then .ok 0 else miGlobal (logBase b) (.all1D s.symbols) none

/-- global value of `OrdinalMIEstimator` -/
noncomputable def ordMI (q : Argsort α) (data : List (List α)) (p : OrdParams) (offset : Option Int)
    (b : Base) : Except Exc ℝ := do
  let s ← ordMIInit q data p offset
  ordMICalculate s b

/-- local values of `OrdinalMIEstimator`, `mutual_information/ordinal.py:185-193`; the global value is
computed first. -/
noncomputable def ordMILocal (q : Argsort α) (data : List (List α)) (p : OrdParams)
    (offset : Option Int) (b : Base) : Except Exc (List ℝ) := do
  let s ← ordMIInit q data p offset
  let _ ← ordMICalculate s b
  miLocal (logBase b) s.symbols none

/-- what the conditional constructor keeps -/
structure OrdCMIState where
  dim : Int
  symbols : List (List Int)
  symbolsCond : List Int

/-- `BaseOrdinalMIEstimator.__init__` with a condition, `mutual_information/ordinal.py:64-142`
(`OrdinalCMIEstimator`; without condition its base constructor raises ValueError) -/
def ordCMIInit (q : Argsort α) (data : List (List α)) (cond : Option (List α)) (p : OrdParams)
    (offset : Option Int) : Except Exc OrdCMIState := do
  let dz ← cmiInit data cond offset
  let ds ← ordPairChecks 1 (dz.1.headD []).length p.dim p.step
  let syms ← dz.1.mapM (ordSymbols q ds.1 ds.2 p.stable)
  let z ← ordSymbols q ds.1 ds.2 p.stable dz.2
  pure { dim := ds.1, symbols := syms, symbolsCond := z }

/-- `OrdinalCMIEstimator._calculate`, `mutual_information/ordinal.py:230-240` -/
noncomputable def ordCMICalculate (s : OrdCMIState) (b : Base) : Except Exc ℝ :=
  if s.dim = 1 then .ok 0 else cmiNdInt (logBase b) s.symbols s.symbolsCond none

/-- global value of `OrdinalCMIEstimator` -/
noncomputable def ordCMI (q : Argsort α) (data : List (List α)) (cond : Option (List α)) (p : OrdParams)
    (offset : Option Int) (b : Base) : Except Exc ℝ := do
  let s ← ordCMIInit q data cond p offset
  ordCMICalculate s b

/-- local values of `OrdinalCMIEstimator`, `mutual_information/ordinal.py:242-252` -/
noncomputable def ordCMILocal (q : Argsort α) (data : List (List α)) (cond : Option (List α))
    (p : OrdParams) (offset : Option Int) (b : Base) : Except Exc (List ℝ) := do
  let s ← ordCMIInit q data cond p offset
  let _ ← ordCMICalculate s b
  cmiLocal (logBase b) s.symbols s.symbolsCond none

/-- parameters of the ordinal transfer entropy; the step is in the slicing parameters -/
structure OrdTEParams where
  dim : PyArg
  stable : Bool := false
  te : TEParams := {}
  condHist : PyArg := .int 1

/-- `OrdinalTEEstimator`, global value, `transfer_entropy/ordinal.py:66-239`: base constructor, checks,
symbolisation of both (shifted) series, then the discrete transfer entropy of the symbols. -/
noncomputable def ordTE (q : Argsort α) (source dest : List α) (p : OrdTEParams)
    (propTime offset : Option PyArg) (b : Base) (rnd : SrcRandom := {}) : Except Exc ℝ := do
  let d ← teInit source dest propTime offset p.te.step
  let ds ← ordPairChecks 0 d.1.length p.dim p.te.step
  let x ← symbolizeInt q d.1 ds.1 ds.2 p.stable
  let y ← symbolizeInt q d.2 ds.1 ds.2 p.stable
  let s ← teObservations x y p.te.srcHist p.te.destHist p.te.step rnd
  combinedTE (logBase b) s none

/-- `OrdinalTEEstimator`, local values, `transfer_entropy/ordinal.py:222-239` -/
noncomputable def ordTELocal (q : Argsort α) (source dest : List α) (p : OrdTEParams)
    (propTime offset : Option PyArg) (b : Base) (rnd : SrcRandom := {}) : Except Exc (List ℝ) := do
  let d ← teInit source dest propTime offset p.te.step
  let ds ← ordPairChecks 0 d.1.length p.dim p.te.step
  let x ← symbolizeInt q d.1 ds.1 ds.2 p.stable
  let y ← symbolizeInt q d.2 ds.1 ds.2 p.stable
  let s ← teObservations x y p.te.srcHist p.te.destHist p.te.step rnd
  let _ ← combinedTE (logBase b) s none
  combinedTELocal (logBase b) s none

/-- `OrdinalCTEEstimator`, global value, `transfer_entropy/ordinal.py:65-164`, `278-295`; the slicing
is called without permutation flags. -/
noncomputable def ordCTE (q : Argsort α) (source dest : List α) (cond : Option (List α)) (p : OrdTEParams)
    (propTime offset : Option PyArg) (b : Base) : Except Exc ℝ := do
  let d ← cteInit source dest cond propTime offset
  let ds ← ordPairChecks 0 d.1.length p.dim p.te.step
  let x ← symbolizeInt q d.1 ds.1 ds.2 p.stable
  let y ← symbolizeInt q d.2.1 ds.1 ds.2 p.stable
  let z ← symbolizeInt q d.2.2 ds.1 ds.2 p.stable
  let s ← cteObservations x y z p.te.srcHist p.te.destHist p.condHist p.te.step
  combinedTE (logBase b) s none

/-- `OrdinalCTEEstimator`, local values, `transfer_entropy/ordinal.py:297-314` -/
noncomputable def ordCTELocal (q : Argsort α) (source dest : List α) (cond : Option (List α)) (p : OrdTEParams)
    (propTime offset : Option PyArg) (b : Base) : Except Exc (List ℝ) := do
  let d ← cteInit source dest cond propTime offset
  let ds ← ordPairChecks 0 d.1.length p.dim p.te.step
  let x ← symbolizeInt q d.1 ds.1 ds.2 p.stable
  let y ← symbolizeInt q d.2.1 ds.1 ds.2 p.stable
  let z ← symbolizeInt q d.2.2 ds.1 ds.2 p.stable
  let s ← cteObservations x y z p.te.srcHist p.te.destHist p.condHist p.te.step
  let _ ← combinedTE (logBase b) s none
  combinedTELocal (logBase b) s none

/-- `_calculate` of an `OrdinalMIEstimator` object as statistical testing sees it: the symbols were fixed
by the constructor, so neither the current `self.data` nor the generator is read. -/
noncomputable def ordMICalc {G : Type} (s : OrdMIState) (b : Base) : MICalc (List α) G :=
  fun _ g => ((ordMICalculate s b).map .scalar, g)

/-- the same for `OrdinalCMIEstimator` -/
noncomputable def ordCMICalc {G : Type} (s : OrdCMIState) (b : Base) : MICalc (List α) G :=
  fun _ g => ((ordCMICalculate s b).map .scalar, g)

/-- `_calculate` of `OrdinalCTEEstimator` on the data kept by the constructor: the flags are not used. -/
noncomputable def ordCTECalc {G : Type} (q : Argsort α) (source dest cond : List α) (d step : Int)
    (p : OrdTEParams) (b : Base) : TECalc G := fun _ g =>
  ((do
    let x ← symbolizeInt q source d step p.stable
    let y ← symbolizeInt q dest d step p.stable
    let z ← symbolizeInt q cond d step p.stable
    let s ← cteObservations x y z p.te.srcHist p.te.destHist p.condHist p.te.step
    let v ← combinedTE (logBase b) s none
    pure (CalcRes.scalar v)), g)

end

end Verif
